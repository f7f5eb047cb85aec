import Verif.Go.ParserText
import Verif.Model.ParserMore
import Verif.Go.JO
/-!
# Go.ParserTyped — the text of the typed methods of `Parser`

parse_set.go:55-81, parse_add.go:343-444, parse_get.go:6-333.
-/

namespace Jin.Go

/-- A call that another one leads to, with room for small calls on the way. -/
theorem Call.lift2 {fl : FloatLib UInt64} {f f' : Id} {g : Func} {args args' : List Val} {path path' : List Bytes} {r r' : R (List Val)} {ps : List Id} {x : Id} (M : Nat)
    (h : Call fl f args path r)
    (hg : (jin fl).funcs.find? (fun g => g.name == f') = some g) (hv : g.variadic = true) (hp : g.params = ps ++ [x])
    (hl : ps.length = args'.length)
    (hr : ∀ fuel d, M < fuel → (jin fl).fn fuel (d + 5) f true (args ++ [.strs path]) = r →
      (jin fl).fn fuel (d + 6) f' true (args' ++ [.strs path']) = r') : Call fl f' args' path' r' := by
  obtain ⟨N, h⟩ := h
  exact Call.of hg hv hp hl (N + M) (N + 5) fun fuel d hf => hr fuel (d + N) (by omega) (h fuel (d + N + 5) (by omega) (by omega)).1

/-- A typed method of `Parser` that changes it, with its arguments. -/
inductive TMut where
  | setString (value : Bytes) | setInt (value : Int) | setFloat (value : UInt64) | setBool (value : Bool)
  | addKeyValueString (key : Bytes) (value : Bytes) | addKeyValueInt (key : Bytes) (value : Int) | addKeyValueFloat (key : Bytes) (value : UInt64) | addKeyValueBool (key : Bytes) (value : Bool)
  | addString (value : Bytes) | addInt (value : Int) | addFloat (value : UInt64) | addBool (value : Bool)
  | insertString (index : Int) (value : Bytes) | insertInt (index : Int) (value : Int) | insertFloat (index : Int) (value : UInt64) | insertBool (index : Int) (value : Bool)

/-- The name of the method, and its arguments. -/
def TMut.call : TMut → Id × List Val
  | .setString value => (go% Parser.SetString, [.bytes value])
  | .setInt value => (go% Parser.SetInt, [.int value])
  | .setFloat value => (go% Parser.SetFloat, [.float value])
  | .setBool value => (go% Parser.SetBool, [.bool value])
  | .addKeyValueString key value => (go% Parser.AddKeyValueString, [.bytes key, .bytes value])
  | .addKeyValueInt key value => (go% Parser.AddKeyValueInt, [.bytes key, .int value])
  | .addKeyValueFloat key value => (go% Parser.AddKeyValueFloat, [.bytes key, .float value])
  | .addKeyValueBool key value => (go% Parser.AddKeyValueBool, [.bytes key, .bool value])
  | .addString value => (go% Parser.AddString, [.bytes value])
  | .addInt value => (go% Parser.AddInt, [.int value])
  | .addFloat value => (go% Parser.AddFloat, [.float value])
  | .addBool value => (go% Parser.AddBool, [.bool value])
  | .insertString index value => (go% Parser.InsertString, [.int index, .bytes value])
  | .insertInt index value => (go% Parser.InsertInt, [.int index, .int value])
  | .insertFloat index value => (go% Parser.InsertFloat, [.int index, .float value])
  | .insertBool index value => (go% Parser.InsertBool, [.int index, .bool value])

/-- What the method does to a parser that is a value (`Model/Parser.lean`, `Model/ParserMore.lean`). -/
def TMut.val (fl : FloatLib UInt64) (m : TMut) (P : Parser) (path : List Bytes) : PRes :=
  match m with
  | .setString value => Parser.SetString P value path
  | .setInt value => Parser.SetInt P value path
  | .setFloat value => Parser.SetFloat fl P value path
  | .setBool value => Parser.SetBool P value path
  | .addKeyValueString key value => Parser.AddKeyValueString (fun s => (fl.parse s).isSome) P key value path
  | .addKeyValueInt key value => Parser.AddKeyValueInt P key value path
  | .addKeyValueFloat key value => Parser.AddKeyValueFloat fl P key value path
  | .addKeyValueBool key value => Parser.AddKeyValueBool P key value path
  | .addString value => Parser.AddString (fun s => (fl.parse s).isSome) P value path
  | .addInt value => Parser.AddInt P value path
  | .addFloat value => Parser.AddFloat fl P value path
  | .addBool value => Parser.AddBool P value path
  | .insertString index value => Parser.InsertString (fun s => (fl.parse s).isSome) P index value path
  | .insertInt index value => Parser.InsertInt P index value path
  | .insertFloat index value => Parser.InsertFloat fl P index value path
  | .insertBool index value => Parser.InsertBool P index value path

/-- What the method does to a parser on the memory of nodes. -/
def TMut.ptr (fl : FloatLib UInt64) (m : TMut) (h : NHeap) (p : ParserP) (path : List Bytes) : PResP :=
  match m with
  | .setString value => 
    match value.head?, value.getLast? with
    | some a, some z => if a != 34 && z != 34 then p.Set h (quote value) path else p.Set h value path
    | _, _ => .panic
  | .setInt value => p.Set h (itoa value) path
  | .setFloat value => p.Set h (fl.format value) path
  | .setBool value => p.Set h (boolText value) path
  | .addKeyValueString key value => if key.length == 0 then .done p h (some .nullKey) else p.AddKeyValue h key (formatType (fun s => (fl.parse s).isSome) value) path
  | .addKeyValueInt key value => if key.length == 0 then .done p h (some .nullKey) else p.AddKeyValue h key (itoa value) path
  | .addKeyValueFloat key value => if key.length == 0 then .done p h (some .nullKey) else p.AddKeyValue h key (fl.format value) path
  | .addKeyValueBool key value => if key.length == 0 then .done p h (some .nullKey) else p.AddKeyValue h key (boolText value) path
  | .addString value => p.Add h (formatType (fun s => (fl.parse s).isSome) value) path
  | .addInt value => p.Add h (itoa value) path
  | .addFloat value => p.Add h (fl.format value) path
  | .addBool value => p.Add h (boolText value) path
  | .insertString index value => if index < 0 then .done p h (some .indexOutOfRange) else p.Insert h index (formatType (fun s => (fl.parse s).isSome) value) path
  | .insertInt index value => if index < 0 then .done p h (some .indexOutOfRange) else p.Insert h index (itoa value) path
  | .insertFloat index value => if index < 0 then .done p h (some .indexOutOfRange) else p.Insert h index (fl.format value) path
  | .insertBool index value => if index < 0 then .done p h (some .indexOutOfRange) else p.Insert h index (boolText value) path

theorem TMut.sim (fl : FloatLib UInt64) (m : TMut) {h : NHeap} {p : ParserP} {P : Parser} {up : Option Nat} {t : PTree} (hr : Rep h p P up t) (path : List Bytes) :
    PRel h up t (m.ptr fl h p path) (m.val fl P path) := by
  cases m with
  | setString value =>
    simp only [TMut.ptr, TMut.val, Parser.SetString]
    cases value.head? with
    | none => trivial
    | some a =>
      cases value.getLast? with
      | none => trivial
      | some z =>
        dsimp only
        split
        · exact set_sim hr _ path
        · exact set_sim hr _ path
  | setInt value => exact set_sim hr _ path
  | setFloat value => exact set_sim hr _ path
  | setBool value => exact set_sim hr _ path
  | addKeyValueString key value =>
    simp only [TMut.ptr, TMut.val, Parser.AddKeyValueString]
    split
    · exact hr.same
    · exact addKeyValue_sim hr key _ path
  | addKeyValueInt key value =>
    simp only [TMut.ptr, TMut.val, Parser.AddKeyValueInt]
    split
    · exact hr.same
    · exact addKeyValue_sim hr key _ path
  | addKeyValueFloat key value =>
    simp only [TMut.ptr, TMut.val, Parser.AddKeyValueFloat]
    split
    · exact hr.same
    · exact addKeyValue_sim hr key _ path
  | addKeyValueBool key value =>
    simp only [TMut.ptr, TMut.val, Parser.AddKeyValueBool]
    split
    · exact hr.same
    · exact addKeyValue_sim hr key _ path
  | addString value => exact add_sim hr _ path
  | addInt value => exact add_sim hr _ path
  | addFloat value => exact add_sim hr _ path
  | addBool value => exact add_sim hr _ path
  | insertString index value =>
    simp only [TMut.ptr, TMut.val, Parser.InsertString]
    split
    · exact hr.same
    · exact insert_sim hr index _ path
  | insertInt index value =>
    simp only [TMut.ptr, TMut.val, Parser.InsertInt]
    split
    · exact hr.same
    · exact insert_sim hr index _ path
  | insertFloat index value =>
    simp only [TMut.ptr, TMut.val, Parser.InsertFloat]
    split
    · exact hr.same
    · exact insert_sim hr index _ path
  | insertBool index value =>
    simp only [TMut.ptr, TMut.val, Parser.InsertBool]
    split
    · exact hr.same
    · exact insert_sim hr index _ path

theorem TMut.sound (fl : FloatLib UInt64) (m : TMut) {h : NHeap} (hh : Closed h) {p : ParserP} (hp : p.core < h.length) (path : List Bytes) :
    Sound h p (m.ptr fl h p path) := by
  cases m with
  | setString value =>
    simp only [TMut.ptr]
    cases value.head? with
    | none => trivial
    | some a =>
      cases value.getLast? with
      | none => trivial
      | some z =>
        dsimp only
        split
        · exact Set_sound hh hp _ path
        · exact Set_sound hh hp _ path
  | setInt value => exact Set_sound hh hp _ path
  | setFloat value => exact Set_sound hh hp _ path
  | setBool value => exact Set_sound hh hp _ path
  | addKeyValueString key value =>
    simp only [TMut.ptr]
    split
    · exact ⟨hh, Nat.le_refl _, rfl⟩
    · exact AddKeyValue_sound hh hp key _ path
  | addKeyValueInt key value =>
    simp only [TMut.ptr]
    split
    · exact ⟨hh, Nat.le_refl _, rfl⟩
    · exact AddKeyValue_sound hh hp key _ path
  | addKeyValueFloat key value =>
    simp only [TMut.ptr]
    split
    · exact ⟨hh, Nat.le_refl _, rfl⟩
    · exact AddKeyValue_sound hh hp key _ path
  | addKeyValueBool key value =>
    simp only [TMut.ptr]
    split
    · exact ⟨hh, Nat.le_refl _, rfl⟩
    · exact AddKeyValue_sound hh hp key _ path
  | addString value => exact Add_sound hh hp _ path
  | addInt value => exact Add_sound hh hp _ path
  | addFloat value => exact Add_sound hh hp _ path
  | addBool value => exact Add_sound hh hp _ path
  | insertString index value =>
    simp only [TMut.ptr]
    split
    · exact ⟨hh, Nat.le_refl _, rfl⟩
    · exact Insert_sound hh hp index _ path
  | insertInt index value =>
    simp only [TMut.ptr]
    split
    · exact ⟨hh, Nat.le_refl _, rfl⟩
    · exact Insert_sound hh hp index _ path
  | insertFloat index value =>
    simp only [TMut.ptr]
    split
    · exact ⟨hh, Nat.le_refl _, rfl⟩
    · exact Insert_sound hh hp index _ path
  | insertBool index value =>
    simp only [TMut.ptr]
    split
    · exact ⟨hh, Nat.le_refl _, rfl⟩
    · exact Insert_sound hh hp index _ path

theorem pres_forms (r : PResP) : (∃ h c j e, presVals r = .ok [.heap h, .ptr c, .bytes j, e]) ∨ presVals r = .panic := by
  cases r with
  | panic => exact .inr rfl
  | done p h e => exact .inl ⟨h, p.core, p.json, errVal e, rfl⟩

/-- `var err error; err = p.F(…); return err` -/
macro "parser_mut " g:ident ", " r:term ", " b:term ", " "[" ls:Lean.Parser.Tactic.simpLemma,* "]" : tactic => `(tactic| (
  have h0 : Call _ _ _ _ (presVals $r) := $b
  have h1 := pres_forms $r
  revert h0 h1
  generalize presVals $r = r
  intro h0 h1
  refine Call.lift2 0 h0 (g := $g) (ps := (Func.params $g).dropLast) (x := 1885434984) rfl rfl rfl rfl fun fuel d _ h => ?_
  simp only [List.cons_append, List.nil_append] at h ⊢
  rw [fn_run (g := $g) rfl]
  rcases h1 with ⟨a, b, c, e, hr⟩ | hr <;> subst hr <;> run_go [Func.run, $g:ident, bindParams, h, $ls,*]))

section
variable (fl : FloatLib UInt64) {h : NHeap} (hh : Closed h) (p : ParserP) (hp : p.core < h.length)
include hh hp

theorem text_Parser_SetString (value : Bytes) (path : List Bytes) :
    Call fl (go% Parser.SetString) [.heap h, .ptr p.core, .bytes p.json, .bytes value] path (presVals (TMut.ptr fl (.setString value) h p path)) := by
  cases h1 : value.head? with
  | none =>
    have h0 : value[0]? = none := by rw [← List.head?_eq_getElem?, h1]
    refine Call.of (g := Src.Parser.SetString) (ps := [_, _, _, _]) rfl rfl rfl rfl 0 1 fun fuel d _ => ?_
    simp only [List.cons_append, List.nil_append]
    rw [fn_run (g := Src.Parser.SetString) rfl]
    run_go [Func.run, Src.Parser.SetString, bindParams, TMut.ptr, presVals, h0, h1]
  | some v =>
    have h0 : value[0]? = some v := by rw [← List.head?_eq_getElem?, h1]
    obtain ⟨z, hz⟩ : ∃ e, value.getLast? = some e := ⟨_, List.getLast?_eq_some_getLast (by rintro rfl; cases h1)⟩
    have e2 := elem_last value
    rw [hz] at e2
    have hq : (34 : UInt8) :: (value ++ [34]) = quote value := rfl
    cases h3 : v == 34 <;> cases h4 : z == 34
    · have e : TMut.ptr fl (.setString value) h p path = p.Set h (quote value) path := by
        simp only [TMut.ptr, hz, h1, bne, h3, h4, Bool.not_false, Bool.and_self, if_true]
      rw [e]
      parser_mut Src.Parser.SetString, (p.Set h (quote value) path), text_Parser_Set fl hh p hp (quote value) path, [h0, e2, h3, h4, bne, hq, Bool.not_false, Bool.not_true, Bool.and_false, Bool.false_and]
    all_goals
      have e : TMut.ptr fl (.setString value) h p path = p.Set h value path := by
        simp only [TMut.ptr, hz, h1, bne, h3, h4, Bool.not_false, Bool.not_true, Bool.and_false, Bool.false_and, Bool.false_eq_true, if_false]
      rw [e]
      parser_mut Src.Parser.SetString, (p.Set h value path), text_Parser_Set fl hh p hp value path, [h0, e2, h3, h4, bne, Bool.not_false, Bool.not_true, Bool.and_false, Bool.false_and]

theorem text_Parser_SetInt (value : Int) (path : List Bytes) :
    Call fl (go% Parser.SetInt) [.heap h, .ptr p.core, .bytes p.json, .int value] path (presVals (TMut.ptr fl (.setInt value) h p path)) := by
  have e : TMut.ptr fl (.setInt value) h p path = (p.Set h (itoa value) path) := by rfl
  rw [e]
  parser_mut Src.Parser.SetInt, (p.Set h (itoa value) path), text_Parser_Set fl hh p hp (itoa value) path, []

theorem text_Parser_SetFloat (value : UInt64) (path : List Bytes) :
    Call fl (go% Parser.SetFloat) [.heap h, .ptr p.core, .bytes p.json, .float value] path (presVals (TMut.ptr fl (.setFloat value) h p path)) := by
  have e : TMut.ptr fl (.setFloat value) h p path = (p.Set h (fl.format value) path) := by rfl
  rw [e]
  parser_mut Src.Parser.SetFloat, (p.Set h (fl.format value) path), text_Parser_Set fl hh p hp (fl.format value) path, []

theorem text_Parser_SetBool (value : Bool) (path : List Bytes) :
    Call fl (go% Parser.SetBool) [.heap h, .ptr p.core, .bytes p.json, .bool value] path (presVals (TMut.ptr fl (.setBool value) h p path)) := by
  cases value
  · have e : TMut.ptr fl (.setBool false) h p path = (p.Set h (boolText false) path) := by rfl
    rw [e]
    have hb : boolText false = [102, 97, 108, 115, 101] := rfl
    parser_mut Src.Parser.SetBool, (p.Set h (boolText false) path), text_Parser_Set fl hh p hp (boolText false) path, [← hb]
  · have e : TMut.ptr fl (.setBool true) h p path = (p.Set h (boolText true) path) := by rfl
    rw [e]
    have hb : boolText true = [116, 114, 117, 101] := rfl
    parser_mut Src.Parser.SetBool, (p.Set h (boolText true) path), text_Parser_Set fl hh p hp (boolText true) path, [← hb]

theorem text_Parser_AddKeyValueString (key : Bytes) (value : Bytes) (path : List Bytes) :
    Call fl (go% Parser.AddKeyValueString) [.heap h, .ptr p.core, .bytes p.json, .bytes key, .bytes value] path (presVals (TMut.ptr fl (.addKeyValueString key value) h p path)) := by
  by_cases h2 : (key.length == 0) = true
  · refine Call.of (g := Src.Parser.AddKeyValueString) (ps := [_, _, _, _, _]) rfl rfl rfl rfl 0 4 fun fuel d _ => ?_
    simp only [List.cons_append, List.nil_append]
    rw [fn_run (g := Src.Parser.AddKeyValueString) rfl]
    run_go [Func.run, Src.Parser.AddKeyValueString, bindParams, TMut.ptr, presVals, h2, errVal]
  rw [Bool.not_eq_true] at h2
  have e : TMut.ptr fl (.addKeyValueString key value) h p path = (p.AddKeyValue h key (formatType (fun s => (fl.parse s).isSome) value) path) := by simp only [TMut.ptr, h2, Bool.false_eq_true, if_false]
  rw [e]
  parser_mut Src.Parser.AddKeyValueString, (p.AddKeyValue h key (formatType (fun s => (fl.parse s).isSome) value) path), text_Parser_AddKeyValue fl hh p hp key (formatType (fun s => (fl.parse s).isSome) value) path, [h2]

theorem text_Parser_AddKeyValueInt (key : Bytes) (value : Int) (path : List Bytes) :
    Call fl (go% Parser.AddKeyValueInt) [.heap h, .ptr p.core, .bytes p.json, .bytes key, .int value] path (presVals (TMut.ptr fl (.addKeyValueInt key value) h p path)) := by
  by_cases h2 : (key.length == 0) = true
  · refine Call.of (g := Src.Parser.AddKeyValueInt) (ps := [_, _, _, _, _]) rfl rfl rfl rfl 0 4 fun fuel d _ => ?_
    simp only [List.cons_append, List.nil_append]
    rw [fn_run (g := Src.Parser.AddKeyValueInt) rfl]
    run_go [Func.run, Src.Parser.AddKeyValueInt, bindParams, TMut.ptr, presVals, h2, errVal]
  rw [Bool.not_eq_true] at h2
  have e : TMut.ptr fl (.addKeyValueInt key value) h p path = (p.AddKeyValue h key (itoa value) path) := by simp only [TMut.ptr, h2, Bool.false_eq_true, if_false]
  rw [e]
  parser_mut Src.Parser.AddKeyValueInt, (p.AddKeyValue h key (itoa value) path), text_Parser_AddKeyValue fl hh p hp key (itoa value) path, [h2]

theorem text_Parser_AddKeyValueFloat (key : Bytes) (value : UInt64) (path : List Bytes) :
    Call fl (go% Parser.AddKeyValueFloat) [.heap h, .ptr p.core, .bytes p.json, .bytes key, .float value] path (presVals (TMut.ptr fl (.addKeyValueFloat key value) h p path)) := by
  by_cases h2 : (key.length == 0) = true
  · refine Call.of (g := Src.Parser.AddKeyValueFloat) (ps := [_, _, _, _, _]) rfl rfl rfl rfl 0 4 fun fuel d _ => ?_
    simp only [List.cons_append, List.nil_append]
    rw [fn_run (g := Src.Parser.AddKeyValueFloat) rfl]
    run_go [Func.run, Src.Parser.AddKeyValueFloat, bindParams, TMut.ptr, presVals, h2, errVal]
  rw [Bool.not_eq_true] at h2
  have e : TMut.ptr fl (.addKeyValueFloat key value) h p path = (p.AddKeyValue h key (fl.format value) path) := by simp only [TMut.ptr, h2, Bool.false_eq_true, if_false]
  rw [e]
  parser_mut Src.Parser.AddKeyValueFloat, (p.AddKeyValue h key (fl.format value) path), text_Parser_AddKeyValue fl hh p hp key (fl.format value) path, [h2]

theorem text_Parser_AddKeyValueBool (key : Bytes) (value : Bool) (path : List Bytes) :
    Call fl (go% Parser.AddKeyValueBool) [.heap h, .ptr p.core, .bytes p.json, .bytes key, .bool value] path (presVals (TMut.ptr fl (.addKeyValueBool key value) h p path)) := by
  by_cases h2 : (key.length == 0) = true
  · refine Call.of (g := Src.Parser.AddKeyValueBool) (ps := [_, _, _, _, _]) rfl rfl rfl rfl 0 4 fun fuel d _ => ?_
    simp only [List.cons_append, List.nil_append]
    rw [fn_run (g := Src.Parser.AddKeyValueBool) rfl]
    run_go [Func.run, Src.Parser.AddKeyValueBool, bindParams, TMut.ptr, presVals, h2, errVal]
  rw [Bool.not_eq_true] at h2
  cases value
  · have e : TMut.ptr fl (.addKeyValueBool key false) h p path = (p.AddKeyValue h key (boolText false) path) := by simp only [TMut.ptr, h2, Bool.false_eq_true, if_false]
    rw [e]
    have hb : boolText false = [102, 97, 108, 115, 101] := rfl
    parser_mut Src.Parser.AddKeyValueBool, (p.AddKeyValue h key (boolText false) path), text_Parser_AddKeyValue fl hh p hp key (boolText false) path, [h2, ← hb]
  · have e : TMut.ptr fl (.addKeyValueBool key true) h p path = (p.AddKeyValue h key (boolText true) path) := by simp only [TMut.ptr, h2, Bool.false_eq_true, if_false]
    rw [e]
    have hb : boolText true = [116, 114, 117, 101] := rfl
    parser_mut Src.Parser.AddKeyValueBool, (p.AddKeyValue h key (boolText true) path), text_Parser_AddKeyValue fl hh p hp key (boolText true) path, [h2, ← hb]

theorem text_Parser_AddString (value : Bytes) (path : List Bytes) :
    Call fl (go% Parser.AddString) [.heap h, .ptr p.core, .bytes p.json, .bytes value] path (presVals (TMut.ptr fl (.addString value) h p path)) := by
  have e : TMut.ptr fl (.addString value) h p path = (p.Add h (formatType (fun s => (fl.parse s).isSome) value) path) := by rfl
  rw [e]
  parser_mut Src.Parser.AddString, (p.Add h (formatType (fun s => (fl.parse s).isSome) value) path), text_Parser_Add fl hh p hp (formatType (fun s => (fl.parse s).isSome) value) path, []

theorem text_Parser_AddInt (value : Int) (path : List Bytes) :
    Call fl (go% Parser.AddInt) [.heap h, .ptr p.core, .bytes p.json, .int value] path (presVals (TMut.ptr fl (.addInt value) h p path)) := by
  have e : TMut.ptr fl (.addInt value) h p path = (p.Add h (itoa value) path) := by rfl
  rw [e]
  parser_mut Src.Parser.AddInt, (p.Add h (itoa value) path), text_Parser_Add fl hh p hp (itoa value) path, []

theorem text_Parser_AddFloat (value : UInt64) (path : List Bytes) :
    Call fl (go% Parser.AddFloat) [.heap h, .ptr p.core, .bytes p.json, .float value] path (presVals (TMut.ptr fl (.addFloat value) h p path)) := by
  have e : TMut.ptr fl (.addFloat value) h p path = (p.Add h (fl.format value) path) := by rfl
  rw [e]
  parser_mut Src.Parser.AddFloat, (p.Add h (fl.format value) path), text_Parser_Add fl hh p hp (fl.format value) path, []

theorem text_Parser_AddBool (value : Bool) (path : List Bytes) :
    Call fl (go% Parser.AddBool) [.heap h, .ptr p.core, .bytes p.json, .bool value] path (presVals (TMut.ptr fl (.addBool value) h p path)) := by
  cases value
  · have e : TMut.ptr fl (.addBool false) h p path = (p.Add h (boolText false) path) := by rfl
    rw [e]
    have hb : boolText false = [102, 97, 108, 115, 101] := rfl
    parser_mut Src.Parser.AddBool, (p.Add h (boolText false) path), text_Parser_Add fl hh p hp (boolText false) path, [← hb]
  · have e : TMut.ptr fl (.addBool true) h p path = (p.Add h (boolText true) path) := by rfl
    rw [e]
    have hb : boolText true = [116, 114, 117, 101] := rfl
    parser_mut Src.Parser.AddBool, (p.Add h (boolText true) path), text_Parser_Add fl hh p hp (boolText true) path, [← hb]

theorem text_Parser_InsertString (index : Int) (value : Bytes) (path : List Bytes) :
    Call fl (go% Parser.InsertString) [.heap h, .ptr p.core, .bytes p.json, .int index, .bytes value] path (presVals (TMut.ptr fl (.insertString index value) h p path)) := by
  by_cases h2 : index < 0
  · refine Call.of (g := Src.Parser.InsertString) (ps := [_, _, _, _, _]) rfl rfl rfl rfl 0 4 fun fuel d _ => ?_
    simp only [List.cons_append, List.nil_append]
    rw [fn_run (g := Src.Parser.InsertString) rfl]
    run_go [Func.run, Src.Parser.InsertString, bindParams, TMut.ptr, presVals, h2, errVal]
  have e : TMut.ptr fl (.insertString index value) h p path = (p.Insert h index (formatType (fun s => (fl.parse s).isSome) value) path) := by simp only [TMut.ptr, h2, if_false]
  rw [e]
  parser_mut Src.Parser.InsertString, (p.Insert h index (formatType (fun s => (fl.parse s).isSome) value) path), text_Parser_Insert fl hh p hp index (formatType (fun s => (fl.parse s).isSome) value) path, [h2]

theorem text_Parser_InsertInt (index : Int) (value : Int) (path : List Bytes) :
    Call fl (go% Parser.InsertInt) [.heap h, .ptr p.core, .bytes p.json, .int index, .int value] path (presVals (TMut.ptr fl (.insertInt index value) h p path)) := by
  by_cases h2 : index < 0
  · refine Call.of (g := Src.Parser.InsertInt) (ps := [_, _, _, _, _]) rfl rfl rfl rfl 0 4 fun fuel d _ => ?_
    simp only [List.cons_append, List.nil_append]
    rw [fn_run (g := Src.Parser.InsertInt) rfl]
    run_go [Func.run, Src.Parser.InsertInt, bindParams, TMut.ptr, presVals, h2, errVal]
  have e : TMut.ptr fl (.insertInt index value) h p path = (p.Insert h index (itoa value) path) := by simp only [TMut.ptr, h2, if_false]
  rw [e]
  parser_mut Src.Parser.InsertInt, (p.Insert h index (itoa value) path), text_Parser_Insert fl hh p hp index (itoa value) path, [h2]

theorem text_Parser_InsertFloat (index : Int) (value : UInt64) (path : List Bytes) :
    Call fl (go% Parser.InsertFloat) [.heap h, .ptr p.core, .bytes p.json, .int index, .float value] path (presVals (TMut.ptr fl (.insertFloat index value) h p path)) := by
  by_cases h2 : index < 0
  · refine Call.of (g := Src.Parser.InsertFloat) (ps := [_, _, _, _, _]) rfl rfl rfl rfl 0 4 fun fuel d _ => ?_
    simp only [List.cons_append, List.nil_append]
    rw [fn_run (g := Src.Parser.InsertFloat) rfl]
    run_go [Func.run, Src.Parser.InsertFloat, bindParams, TMut.ptr, presVals, h2, errVal]
  have e : TMut.ptr fl (.insertFloat index value) h p path = (p.Insert h index (fl.format value) path) := by simp only [TMut.ptr, h2, if_false]
  rw [e]
  parser_mut Src.Parser.InsertFloat, (p.Insert h index (fl.format value) path), text_Parser_Insert fl hh p hp index (fl.format value) path, [h2]

theorem text_Parser_InsertBool (index : Int) (value : Bool) (path : List Bytes) :
    Call fl (go% Parser.InsertBool) [.heap h, .ptr p.core, .bytes p.json, .int index, .bool value] path (presVals (TMut.ptr fl (.insertBool index value) h p path)) := by
  by_cases h2 : index < 0
  · refine Call.of (g := Src.Parser.InsertBool) (ps := [_, _, _, _, _]) rfl rfl rfl rfl 0 4 fun fuel d _ => ?_
    simp only [List.cons_append, List.nil_append]
    rw [fn_run (g := Src.Parser.InsertBool) rfl]
    run_go [Func.run, Src.Parser.InsertBool, bindParams, TMut.ptr, presVals, h2, errVal]
  cases value
  · have e : TMut.ptr fl (.insertBool index false) h p path = (p.Insert h index (boolText false) path) := by simp only [TMut.ptr, h2, if_false]
    rw [e]
    have hb : boolText false = [102, 97, 108, 115, 101] := rfl
    parser_mut Src.Parser.InsertBool, (p.Insert h index (boolText false) path), text_Parser_Insert fl hh p hp index (boolText false) path, [h2, ← hb]
  · have e : TMut.ptr fl (.insertBool index true) h p path = (p.Insert h index (boolText true) path) := by simp only [TMut.ptr, h2, if_false]
    rw [e]
    have hb : boolText true = [116, 114, 117, 101] := rfl
    parser_mut Src.Parser.InsertBool, (p.Insert h index (boolText true) path), text_Parser_Insert fl hh p hp index (boolText true) path, [h2, ← hb]

theorem TMut.text (m : TMut) (path : List Bytes) :
    Call fl m.call.1 (.heap h :: .ptr p.core :: .bytes p.json :: m.call.2) path (presVals (m.ptr fl h p path)) := by
  cases m with
  | setString value => exact text_Parser_SetString fl hh p hp value path
  | setInt value => exact text_Parser_SetInt fl hh p hp value path
  | setFloat value => exact text_Parser_SetFloat fl hh p hp value path
  | setBool value => exact text_Parser_SetBool fl hh p hp value path
  | addKeyValueString key value => exact text_Parser_AddKeyValueString fl hh p hp key value path
  | addKeyValueInt key value => exact text_Parser_AddKeyValueInt fl hh p hp key value path
  | addKeyValueFloat key value => exact text_Parser_AddKeyValueFloat fl hh p hp key value path
  | addKeyValueBool key value => exact text_Parser_AddKeyValueBool fl hh p hp key value path
  | addString value => exact text_Parser_AddString fl hh p hp value path
  | addInt value => exact text_Parser_AddInt fl hh p hp value path
  | addFloat value => exact text_Parser_AddFloat fl hh p hp value path
  | addBool value => exact text_Parser_AddBool fl hh p hp value path
  | insertString index value => exact text_Parser_InsertString fl hh p hp index value path
  | insertInt index value => exact text_Parser_InsertInt fl hh p hp index value path
  | insertFloat index value => exact text_Parser_InsertFloat fl hh p hp index value path
  | insertBool index value => exact text_Parser_InsertBool fl hh p hp index value path

end

end Jin.Go
