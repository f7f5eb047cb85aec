import Verif.Props.ParserSession
import Verif.Props.CommuteEntries
/-!
# Props.ParserCommute — C139: the order of calls on a parser
-/

namespace Jin
open Spec

/-- Not `SetKey`. -/
def Spec.Edit.keeps : Edit → Bool
  | .setKey _ _ _ => false
  | _ => true

theorem nested_inside {p : List Text} {o : Edit} (hp : p ≠ []) (hi : o.inside p) (hk : o.keeps) : o.nested := by
  obtain ⟨r, hr⟩ := List.isPrefixOf_iff_prefix.1 hi
  cases o <;> first | rfl | cases hk | skip
  all_goals
    simp only [Edit.at] at hr
    simp [Edit.nested, ← hr, hp]

theorem nested_under {p : List Text} {o : Edit} (hp : p ≠ []) (hk : o.keeps) : (o.under p).nested := by
  cases o <;> simp [Edit.under, Edit.nested, hp] <;> cases hk

theorem diverge_ne {d : Doc} {p q : List Text} (h : d.diverge p q) : p ≠ [] ∧ q ≠ [] := by
  constructor
  · rintro rfl; simp [Doc.diverge, Json.diverge] at h
  · rintro rfl
    unfold Doc.diverge at h
    cases p <;> simp [Json.diverge] at h

/-- **C139 (partial)** Two parsers of one document get calls inside two values on diverging paths, the same inside each value but interleaved in another way.  If no
call reports an error, the texts of the parsers are the same in the end, whatever their trees.  Missing: `SetKey`. -/
theorem C139_parts_partial {d : Doc} {p q : List Text} {w x : Json} {l m : List Edit} {P P' Q Q' : Parser} (hd : d.wf) (hP : P.json = d.render) (hQ : Q.json = d.render)
    (hp : d.get? p = some w) (hq : d.get? q = some x) (hdv : d.diverge p q) (hl : ∀ o ∈ l, (o.inside p ∨ o.inside q) ∧ o.keeps)
    (hm : ∀ o ∈ m, (o.inside p ∨ o.inside q) ∧ o.keeps) (h1 : l.filter (Edit.inside p) = m.filter (Edit.inside p))
    (h2 : l.filter (Edit.inside q) = m.filter (Edit.inside q)) (hva : Valid d.root.plain (l.map fun o => (o, none)))
    (hvb : Valid d.root.plain (m.map fun o => (o, none))) (ha : ParserSession P l P') (hb : ParserSession Q m Q') : P'.json = Q'.json := by
  obtain ⟨n1, n2⟩ := diverge_ne hdv
  have key : ∀ {l : List Edit}, (∀ o ∈ l, (o.inside p ∨ o.inside q) ∧ o.keeps) → ∀ o ∈ l, o.nested := by
    intro l hl o ho
    obtain ⟨hi, hk⟩ := hl o ho
    exact hi.elim (fun hi => nested_inside n1 hi hk) fun hi => nested_inside n2 hi hk
  obtain ⟨r1, -⟩ := C136_session_partial hd hP (key hl) hva ha
  obtain ⟨r2, -⟩ := C136_session_partial hd hQ (key hm) hvb hb
  rw [hP] at r1
  rw [hQ] at r2
  exact C133_sessions hd hp hq hdv (fun o ho => (hl o ho).1) (fun o ho => (hm o ho).1) h1 h2 r1 hva r2 hvb

theorem under_valid {p : List Text} : ∀ {l : List Edit} {t u : Plain}, t.get? p = some u → Valid u (l.map fun o => (o, none)) →
    Valid t ((l.map (Edit.under p)).map fun o => (o, none))
  | [], _, _, _, _ => rfl
  | o :: l, t, u, h, hv => by
    obtain ⟨ho, hap, hv⟩ := valid_none.1 hv
    refine valid_none.2 ⟨by rw [under_args]; exact ho, applies_under h hap, fun t' ht' => ?_⟩
    rw [on_under] at ht'
    obtain ⟨u', h1, h2⟩ := edit_get p h ht'
    exact under_valid h2 (hv u' h1)

theorem doc_plain {d : Doc} {p : List Text} {w : Json} (h : d.get? p = some w) : d.root.plain.get? p = some w.plain := by
  rw [get_plain]; exact congrArg (Option.map Json.plain) h

/-- **C139 (partial)** Two parsers of one document get calls below `p` that make the same of the value there.  If no call reports an error, the texts of the parsers
differ in white space only in the end.  Missing: `SetKey`, and the root. -/
theorem C139_value_partial {d : Doc} {p : List Text} {w : Json} {l m : List Edit} {P P' Q Q' : Parser} (hd : d.wf) (hP : P.json = d.render) (hQ : Q.json = d.render)
    (hp : p ≠ []) (hw : d.get? p = some w) (hkl : ∀ o ∈ l, o.keeps) (hkm : ∀ o ∈ m, o.keeps)
    (hl : Valid w.plain (l.map fun o => (o, none))) (hm : Valid w.plain (m.map fun o => (o, none)))
    (he : follow w.plain (l.map fun o => (o, none)) = follow w.plain (m.map fun o => (o, none)))
    (ha : ParserSession P (l.map (Edit.under p)) P') (hb : ParserSession Q (m.map (Edit.under p)) Q') : Flatten P'.json = Flatten Q'.json := by
  have key : ∀ {l : List Edit}, (∀ o ∈ l, o.keeps) → ∀ o ∈ l.map (Edit.under p), o.nested := by
    intro l hl o ho
    obtain ⟨u, hu, rfl⟩ := List.mem_map.1 ho
    exact nested_under hp (hl u hu)
  obtain ⟨r1, -⟩ := C136_session_partial hd hP (key hkl) (under_valid (doc_plain hw) hl) ha
  obtain ⟨r2, -⟩ := C136_session_partial hd hQ (key hkm) (under_valid (doc_plain hw) hm) hb
  rw [hP] at r1
  rw [hQ] at r2
  exact C138_sessions hd hw hl hm he r1 r2

/-- The text of a parser after `Parse` and calls that report no error. -/
def Sample.after (json : Bytes) (os : List Edit) : Option Bytes :=
  match Parse json with
  | .ok P => (Sample.goThree P os).map Parser.json
  | _ => none

theorem after_session {json t : Bytes} {os : List Edit} (h : Sample.after json os = some t) :
    ∃ P P', Parse json = .ok P ∧ ParserSession P os P' ∧ P'.json = t := by
  unfold Sample.after at h
  split at h
  · next P hP =>
    obtain ⟨P', h1, h2⟩ := Option.map_eq_some_iff.1 h
    exact ⟨P, P', hP, goThree_session h1, h2⟩
  · cases h

/-- Two objects side by side. -/
def Sample.sides : Doc where
  lead := []
  root := .obj [] [Sample.mem (str "a") (.obj [] [Sample.mem (str "x") (.lit (str "1"))]), Sample.mem (str "b") (.obj [] [Sample.mem (str "y") (.lit (str "2"))])]
  trail := []

def Sample.renameA : Edit := .setKey [str "a"] (str "x") (str "z")
def Sample.addB : Edit := .addKeyValue [str "b"] (str "z") (.lit (str "4"))
def Sample.addA : Edit := .addKeyValue [str "a"] (str "w") (.lit (str "3"))
def Sample.setA : Edit := .set [str "a", str "x"] (.lit (str "5"))

/-- **C139 does not hold**: `SetKey` in `a` and `AddKeyValue` to `b`, both without an error, leave other texts in the other order, since after the
`AddKeyValue` the parser's `SetKey` does nothing and reports success. -/
theorem C139_fails : Sample.sides.wf ∧ Sample.sides.diverge [str "a"] [str "b"] ∧ Sample.renameA.inside [str "a"] ∧ Sample.addB.inside [str "b"] ∧
    Valid Sample.sides.root.plain ([Sample.renameA, Sample.addB].map fun o => (o, none)) ∧
    Valid Sample.sides.root.plain ([Sample.addB, Sample.renameA].map fun o => (o, none)) ∧
    Sample.after Sample.sides.render [Sample.renameA, Sample.addB] = some (str "{\"a\":{\"z\":1},\"b\":{\"y\":2,\"z\":4}}") ∧
    Sample.after Sample.sides.render [Sample.addB, Sample.renameA] = some (str "{\"a\":{\"x\":1},\"b\":{\"y\":2,\"z\":4}}") := by
  refine ⟨by decide +kernel, diverge_of (a := 0) (b := 1) (by decide +kernel) (by decide +kernel) (.inl (by decide)), ?_, ?_, ?_, ?_, ?_, ?_⟩ <;> decide +kernel

/-- A case of C139: `AddKeyValue` and `Set` in `a`, `AddKeyValue` to `b` before or between them. -/
example : Sample.after Sample.sides.render [Sample.addB, Sample.addA, Sample.setA] = some (str "{\"a\":{\"x\":5,\"w\":3},\"b\":{\"y\":2,\"z\":4}}") ∧
    Sample.after Sample.sides.render [Sample.addA, Sample.addB, Sample.setA] = some (str "{\"a\":{\"x\":5,\"w\":3},\"b\":{\"y\":2,\"z\":4}}") ∧
    (∀ o ∈ [Sample.addB, Sample.addA, Sample.setA], (o.inside [str "a"] ∨ o.inside [str "b"]) ∧ o.keeps) ∧
    [Sample.addB, Sample.addA, Sample.setA].filter (Edit.inside [str "a"]) = [Sample.addA, Sample.setA] ∧
    [Sample.addA, Sample.addB, Sample.setA].filter (Edit.inside [str "a"]) = [Sample.addA, Sample.setA] ∧
    Valid Sample.sides.root.plain ([Sample.addB, Sample.addA, Sample.setA].map fun o => (o, none)) ∧
    Valid Sample.sides.root.plain ([Sample.addA, Sample.addB, Sample.setA].map fun o => (o, none)) := by
  have i1 : Sample.addB.inside [str "a"] = false := by decide +kernel
  have i2 : Sample.addA.inside [str "a"] = true := by decide +kernel
  have i3 : Sample.setA.inside [str "a"] = true := by decide +kernel
  exact ⟨by decide +kernel, by decide +kernel, by decide +kernel, by simp [i1, i2, i3], by simp [i1, i2, i3], by decide +kernel, by decide +kernel⟩

/-- … and of the other theorem: two members of an object deleted from a parser in either order. -/
example : Sample.after (str "{\"a\":{\"x\":0,\"y\":1 ,\"z\":2}}") [.delete [str "a"] (str "y"), .delete [str "a"] (str "z")] = some (str "{\"a\":{\"x\":0}}") ∧
    Sample.after (str "{\"a\":{\"x\":0,\"y\":1 ,\"z\":2}}") [.delete [str "a"] (str "z"), .delete [str "a"] (str "y")] = some (str "{\"a\":{\"x\":0 }}") := by
  refine ⟨?_, ?_⟩ <;> decide +kernel

end Jin

namespace Jin.Go
open Spec

/-- **C139 for the text (partial)** Two programs parse a document and call methods of the parser inside two values on diverging paths, interleaved in different ways.
If no call reports an error, the texts of the parsers are the same in the end.  Missing as before. -/
theorem C139_text_parts_partial (fl : FloatLib UInt64) {d : Doc} {p q : List Text} {w x : Json} {l m : List Edit} {as bs : List PAns} {v u : WorldP} (hd : d.wf)
    (hc : d.root.isContainer) (hp : d.get? p = some w) (hq : d.get? q = some x) (hdv : d.diverge p q) (hl : ∀ o ∈ l, (o.inside p ∨ o.inside q) ∧ o.keeps)
    (hm : ∀ o ∈ m, (o.inside p ∨ o.inside q) ∧ o.keeps) (h1 : l.filter (Edit.inside p) = m.filter (Edit.inside p))
    (h2 : l.filter (Edit.inside q) = m.filter (Edit.inside q)) (hva : Valid d.root.plain (l.map fun o => (o, none)))
    (hvb : Valid d.root.plain (m.map fun o => (o, none)))
    (ha : TextRun fl ⟨[], []⟩ (.parse d.render :: l.map (Edit.ptrCall 0)) (.parsed none :: as) v) (has : ∀ a ∈ as, ∃ j, a = .did j none)
    (hb : TextRun fl ⟨[], []⟩ (.parse d.render :: m.map (Edit.ptrCall 0)) (.parsed none :: bs) u) (hbs : ∀ a ∈ bs, ∃ j, a = .did j none) :
    ∃ P Q, v.parsers[0]? = some P ∧ u.parsers[0]? = some Q ∧ P.json = Q.json := by
  obtain ⟨P, P1, P2, r1, r2, r3, r4⟩ := text_parser_session fl hd hc ha has
  obtain ⟨Q, Q1, Q2, k1, k2, k3, k4⟩ := text_parser_session fl hd hc hb hbs
  exact ⟨P, Q, r1, k1, by rw [r4, k4]; exact C139_parts_partial hd r2 k2 hp hq hdv hl hm h1 h2 hva hvb r3 k3⟩

/-- **C139 for the text (partial)** … and calls below `p` that make the same of the value there: `Flatten` makes the same of the texts of the parsers. -/
theorem C139_text_value_partial (fl : FloatLib UInt64) {d : Doc} {p : List Text} {w : Json} {l m : List Edit} {as bs : List PAns} {v u : WorldP} (hd : d.wf)
    (hc : d.root.isContainer) (hp : p ≠ []) (hw : d.get? p = some w) (hkl : ∀ o ∈ l, o.keeps) (hkm : ∀ o ∈ m, o.keeps)
    (hl : Valid w.plain (l.map fun o => (o, none))) (hm : Valid w.plain (m.map fun o => (o, none)))
    (he : follow w.plain (l.map fun o => (o, none)) = follow w.plain (m.map fun o => (o, none)))
    (ha : TextRun fl ⟨[], []⟩ (.parse d.render :: (l.map (Edit.under p)).map (Edit.ptrCall 0)) (.parsed none :: as) v) (has : ∀ a ∈ as, ∃ j, a = .did j none)
    (hb : TextRun fl ⟨[], []⟩ (.parse d.render :: (m.map (Edit.under p)).map (Edit.ptrCall 0)) (.parsed none :: bs) u) (hbs : ∀ a ∈ bs, ∃ j, a = .did j none) :
    ∃ P Q t, v.parsers[0]? = some P ∧ u.parsers[0]? = some Q ∧ Call1 fl (go% Flatten) [.bytes P.json] (.ok [.bytes t]) ∧
      Call1 fl (go% Flatten) [.bytes Q.json] (.ok [.bytes t]) := by
  obtain ⟨P, P1, P2, r1, r2, r3, r4⟩ := text_parser_session fl hd hc ha has
  obtain ⟨Q, Q1, Q2, k1, k2, k3, k4⟩ := text_parser_session fl hd hc hb hbs
  have e := C139_value_partial hd r2 k2 hp hw hkl hkm hl hm he r3 k3
  exact ⟨P, Q, _, r1, k1, text_Flatten fl _, by rw [r4, e, ← k4]; exact text_Flatten fl _⟩

/-- `Parse` and two calls without an error, after which the text is `b`. -/
def threeDid (b : Bytes) : List PAns → Bool
  | [.parsed none, .did _ none, .did x none] => x == b
  | _ => false

theorem of_threeDid {b : Bytes} {l : List PAns} (h : threeDid b l = true) : ∃ j, l = [.parsed none, .did j none, .did b none] := by
  unfold threeDid at h
  split at h
  · rw [beq_iff_eq] at h; exact ⟨_, by rw [h]⟩
  · cases h

/-- **C139 does not hold of the text**: a program that renames `x` of `a` to `z` and then adds `z` to `b`, and one that does the same in the other order. No call
reports an error, and the texts differ. -/
theorem C139_text_fails (fl : FloatLib UInt64) : ∃ j1 j2 v u,
    TextRun fl ⟨[], []⟩ (.parse Sample.sides.render :: [Sample.renameA, Sample.addB].map (Edit.ptrCall 0))
      [.parsed none, .did j1 none, .did (str "{\"a\":{\"z\":1},\"b\":{\"y\":2,\"z\":4}}") none] v ∧
    TextRun fl ⟨[], []⟩ (.parse Sample.sides.render :: [Sample.addB, Sample.renameA].map (Edit.ptrCall 0))
      [.parsed none, .did j2 none, .did (str "{\"a\":{\"x\":1},\"b\":{\"y\":2,\"z\":4}}") none] u := by
  have hcs : ∀ os : List Edit, ∀ c ∈ PtrCall.parse Sample.sides.render :: os.map (Edit.ptrCall 0), ∀ k pad b, c ≠ .tree k pad b := by
    intro os c hc k pad b he
    subst he
    rcases List.mem_cons.1 hc with hc | hc
    · cases hc
    · obtain ⟨o, -, ho⟩ := List.mem_map.1 hc
      cases o <;> cases ho
  obtain ⟨j1, e1⟩ := of_threeDid (b := str "{\"a\":{\"z\":1},\"b\":{\"y\":2,\"z\":4}}")
    (l := valRun [] (.parse Sample.sides.render :: [Sample.renameA, Sample.addB].map (Edit.ptrCall 0))) (by decide +kernel)
  obtain ⟨j2, e2⟩ := of_threeDid (b := str "{\"a\":{\"x\":1},\"b\":{\"y\":2,\"z\":4}}")
    (l := valRun [] (.parse Sample.sides.render :: [Sample.addB, Sample.renameA].map (Edit.ptrCall 0))) (by decide +kernel)
  obtain ⟨v, hv⟩ := (C107_sessions fl _ (hcs [Sample.renameA, Sample.addB]) _).2 e1.symm
  obtain ⟨u, hu⟩ := (C107_sessions fl _ (hcs [Sample.addB, Sample.renameA]) _).2 e2.symm
  exact ⟨j1, j2, v, u, hv, hu⟩

end Jin.Go
