import Verif.Props.Session
import Verif.Props.Interleave
import Verif.Props.TextSync
/-!
# Props.ParserSession — C136: the text of a parser after calls that report success
-/

namespace Jin
open Spec

/-- The method of `Parser` that a mutation stands for. -/
def Spec.Edit.onParser (P : Parser) : Edit → PRes
  | .set p v => P.Set v.render p
  | .delete p q => P.Delete (p ++ [q])
  | .add p v => P.Add v.render p
  | .insert p n v => P.Insert n v.render p
  | .addKeyValue p k v => P.AddKeyValue k v.render p
  | .setKey p q new => P.SetKey new (p ++ [q])

/-- All but `SetKey`, and `Add` and `AddKeyValue` to the root. -/
def Spec.Edit.nested : Edit → Bool
  | .add p _ | .addKeyValue p _ _ => !p.isEmpty
  | .setKey _ _ _ => false
  | _ => true

/-- Methods of a parser one after another, none of which reports an error. -/
inductive ParserSession : Parser → List Edit → Parser → Prop
  | nil {P} : ParserSession P [] P
  | cons {P P' P'' o os} : o.onParser P = .done P' none → ParserSession P' os P'' → ParserSession P (o :: os) P''

theorem parser_edit {P P' : Parser} {o : Edit} {t : Plain} (ho : o.nested) (hv : o.applies t) (h : o.onParser P = .done P' none) :
    ∃ er, o.run P.json = .done P'.json er ∧ (o.looks → er = none) := by
  cases o with
  | set p v =>
    have hp := (applies_prop hv).1
    obtain ⟨nd, hw⟩ := Go.set_walks hp h
    obtain ⟨e, he⟩ := C54_set hp hw h
    exact ⟨e, he, fun h => by cases h⟩
  | delete p q =>
    obtain ⟨nd, hw⟩ := Go.delete_walks (by simp) h
    obtain ⟨e, he, -⟩ := C54_delete (by simp) hw h
    exact ⟨e, he, fun h => by cases h⟩
  | add p v => exact ⟨none, C56_nested_add_partial (by simpa [Edit.nested] using ho) h, fun _ => rfl⟩
  | insert p n v => exact ⟨none, C67_text h, fun _ => rfl⟩
  | addKeyValue p k v => exact ⟨none, C56_nested_addKeyValue_partial (by simpa [Edit.nested] using ho) h, fun _ => rfl⟩
  | setKey p q new => cases ho

/-- **C136 (partial)** Whatever state the tree of a parser is in: after calls that apply and report no error, its text is what the functions make of the text it
had, a document with the value that the calls make of the value.  Missing: `SetKey` and, at the root, `Add` and `AddKeyValue`. -/
theorem C136_session_partial : ∀ {os : List Edit} {P P' : Parser} {d : Doc}, d.wf → P.json = d.render → (∀ o ∈ os, o.nested) →
    Valid d.root.plain (os.map fun o => (o, none)) → ParserSession P os P' →
    Does P.json os P'.json ∧ ∃ d' : Doc, P'.json = d'.render ∧ d'.wf ∧ follow d.root.plain (os.map fun o => (o, none)) = some d'.root.plain := by
  intro os
  induction os with
  | nil =>
    intro P P' d hd hj _ _ h
    cases h
    exact ⟨.nil, d, hj, hd, rfl⟩
  | cons o os ih =>
    intro P P' d hd hj hn hv h
    cases h with
    | cons h1 h =>
      rename_i P1
      obtain ⟨ho, hap, hv⟩ := valid_none.1 hv
      obtain ⟨er, hr, hl⟩ := parser_edit (hn o List.mem_cons_self) hap h1
      have hr' := hr
      rw [hj] at hr'
      rcases C127_step hd ho hap hr' with ⟨rfl, d1, k1, k2, k3, -⟩ | ⟨h0, hlo, -⟩
      · obtain ⟨r1, d', r2, r3, r4⟩ := ih k2 k1 (fun o ho => hn o (List.mem_cons_of_mem _ ho)) (hv _ k3) h
        exact ⟨.cons hr r1, d', r2, r3, by rw [List.map_cons, follow, k3]; exact r4⟩
      · exact absurd (hl hlo) h0

/-- **C136 (partial)** With `SetKey` as well: each call that reports no error does what the function of the same name does, except that `SetKey` reports none when
the function refuses, and then leaves the text as it is.  So the text is a document with the value that the other calls make of the value. -/
theorem C136_exact_partial : ∀ {os : List Edit} {P P' : Parser} {d : Doc}, d.wf → P.json = d.render → (∀ o ∈ os, o.nested ∨ ∃ p q k, o = .setKey p q k) →
    ValidAll d.root.plain os → ParserSession P os P' →
    ∃ l, l.map Prod.fst = os ∧ Session P.json l P'.json ∧ (∀ x ∈ l, x.2 ≠ none → ∃ p q k, x.1 = .setKey p q k) ∧ Valid d.root.plain l ∧
      ∃ d' : Doc, P'.json = d'.render ∧ d'.wf ∧ follow d.root.plain l = some d'.root.plain := by
  intro os
  induction os with
  | nil =>
    intro P P' d hd hj _ _ h
    cases h
    exact ⟨[], rfl, .nil, by simp, rfl, d, hj, hd, rfl⟩
  | cons o os ih =>
    intro P P' d hd hj hn hv h
    cases h with
    | cons h1 h =>
      rename_i P1
      obtain ⟨ho, hap, hv1, hv2⟩ := validAll_cons.1 hv
      have hr : ∃ er, o.run P.json = .done P1.json er ∧ (er ≠ none → o.looks → ∃ p q k, o = .setKey p q k) := by
        rcases hn o List.mem_cons_self with hn | ⟨p, q, k, rfl⟩
        · obtain ⟨er, hr, hl⟩ := parser_edit hn hap h1
          exact ⟨er, hr, fun h0 h => absurd (hl h) h0⟩
        · obtain ⟨er, hr⟩ := C54_setKey h1
          exact ⟨er, hr, fun _ _ => ⟨p, q, k, rfl⟩⟩
      obtain ⟨er, hr, hl⟩ := hr
      have hr' := hr
      rw [hj] at hr'
      have hn' := fun o ho => hn o (List.mem_cons_of_mem _ ho)
      rcases C127_step hd ho hap hr' with ⟨rfl, d1, k1, k2, k3, -⟩ | ⟨h0, hlo, hsame⟩
      · obtain ⟨l, r1, r2, r3, r4, d', r5, r6, r7⟩ := ih k2 k1 hn' (hv1 _ k3) h
        refine ⟨(o, none) :: l, by rw [List.map_cons, r1], .cons hr r2, ?_, valid_none.2 ⟨ho, hap, fun t' e => ?_⟩, d', r5, r6, by rw [follow, k3]; exact r7⟩
        · intro x hx hne
          rcases List.mem_cons.1 hx with rfl | hx
          · exact absurd rfl hne
          · exact r3 x hx hne
        · cases k3.symm.trans e
          exact r4
      · obtain ⟨l, r1, r2, r3, r4, d', r5, r6, r7⟩ := ih hd hsame hn' (hv2 hlo) h
        cases er with
        | none => exact absurd rfl h0
        | some e =>
          refine ⟨(o, some e) :: l, by rw [List.map_cons, r1], .cons hr r2, ?_, valid_some.2 ⟨ho, hap, r4⟩, d', r5, r6, r7⟩
          intro x hx hne
          rcases List.mem_cons.1 hx with rfl | hx
          · exact hl h0 hlo
          · exact r3 x hx hne

/-- `SetKey` of a parser may report success and leave the text as it is: `x` of `a` to `z` in `{"a":{"x":1},"b":{"y":2,"z":4}}`. -/
theorem C136_fails : session (str "{\"a\":{\"x\":1},\"b\":{\"y\":2,\"z\":4}}") (·.SetKey (str "z") [str "a", str "x"]) Parser.json =
      some (str "{\"a\":{\"x\":1},\"b\":{\"y\":2,\"z\":4}}", none) ∧
    session (str "[]") (·.Add (str "5") []) Parser.json = some (str "[,5]", none) := by decide +kernel

end Jin

namespace Jin.Go
open Spec

def _root_.Jin.Spec.Edit.ptrCall (k : Nat) : Edit → PtrCall
  | .set p v => .set k v.render p
  | .delete p q => .delete k (p ++ [q])
  | .add p v => .add k v.render p
  | .insert p n v => .insert k n v.render p
  | .addKeyValue p key v => .addKeyValue k key v.render p
  | .setKey p q new => .setKey k new (p ++ [q])

theorem ptrCall_val (vs : List Parser) (k : Nat) (o : Edit) : valStep vs (o.ptrCall k) = valMut vs k fun P => o.onParser P := by
  cases o <;> rfl

theorem val_session : ∀ {os : List Edit} {vs : List Parser} {k : Nat} {P : Parser}, vs[k]? = some P →
    (∀ a ∈ valRun vs (os.map (Edit.ptrCall k)), ∃ j, a = .did j none) →
    ∃ P', ParserSession P os P' ∧ (valAfter vs (os.map (Edit.ptrCall k)))[k]? = some P' := by
  intro os
  induction os with
  | nil => intro vs k P hk _; exact ⟨P, .nil, hk⟩
  | cons o os ih =>
    intro vs k P hk h
    simp only [List.map_cons, valRun, valAfter, ptrCall_val, valMut, hk] at h ⊢
    cases hr : o.onParser P with
    | panic =>
      simp only [hr] at h
      obtain ⟨j, hj⟩ := h _ List.mem_cons_self
      cases hj
    | done P1 e =>
      simp only [hr] at h ⊢
      obtain ⟨j, hj⟩ := h _ List.mem_cons_self
      cases hj
      have hk1 : (vs.set k P1)[k]? = some P1 := by
        have := (List.getElem?_eq_some_iff.1 hk).1
        rw [List.getElem?_set_self this]
      obtain ⟨P', r1, r2⟩ := ih hk1 (fun a ha => h a (List.mem_cons_of_mem _ ha))
      exact ⟨P', .cons hr r1, r2⟩

theorem text_parser_session (fl : FloatLib UInt64) {d : Doc} {os : List Edit} {answers : List PAns} {w : WorldP} (hd : d.wf) (hc : d.root.isContainer)
    (h : TextRun fl ⟨[], []⟩ (.parse d.render :: os.map (Edit.ptrCall 0)) (.parsed none :: answers) w) (ha : ∀ a ∈ answers, ∃ j, a = .did j none) :
    ∃ p P P', w.parsers[0]? = some p ∧ P.json = d.render ∧ ParserSession P os P' ∧ p.json = P'.json := by
  have hcs : ∀ c ∈ PtrCall.parse d.render :: os.map (Edit.ptrCall 0), ∀ k pad b, c ≠ .tree k pad b := by
    intro c hc k pad b he
    subst he
    rcases List.mem_cons.1 hc with hc | hc
    · cases hc
    · obtain ⟨o, -, ho⟩ := List.mem_map.1 hc
      cases o <;> cases ho
  obtain ⟨P, hP, hs⟩ := parse_sync hd hc
  have hans := (C107_sessions fl _ hcs _).1 ⟨w, h⟩
  have hnp : ∀ a ∈ PAns.parsed none :: answers, a.isPanic = false := by
    intro a hm
    rcases List.mem_cons.1 hm with rfl | hm
    · rfl
    · obtain ⟨j, rfl⟩ := ha a hm; rfl
  obtain ⟨hl, hrd⟩ := C107_reads fl _ hcs _ _ h hnp
  simp only [valRun, valStep, hP, List.nil_append, PAns.isPanic, Bool.false_eq_true, if_false, List.cons.injEq, true_and] at hans
  simp only [valAfter, valStep, hP, List.nil_append] at hl hrd
  obtain ⟨P', r1, r2⟩ := val_session (os := os) (vs := [P]) (k := 0) rfl (hans ▸ ha)
  have hlt : 0 < w.parsers.length := by
    rw [hl]
    exact (List.getElem?_eq_some_iff.1 r2).1
  have hp := List.getElem?_eq_getElem hlt
  exact ⟨_, P, P', hp, hs.json, r1, (hrd 0 _ _ hp r2).1⟩

/-- **C136 for the text (partial)** A program parses a document and calls methods of the parser that apply and report no error.  Then the text of the parser is
what the functions make of the document, with the value that the calls make of the value.  Missing as before. -/
theorem C136_text_partial (fl : FloatLib UInt64) {d : Doc} {os : List Edit} {answers : List PAns} {w : WorldP} (hd : d.wf) (hc : d.root.isContainer)
    (hn : ∀ o ∈ os, o.nested) (hv : Valid d.root.plain (os.map fun o => (o, none)))
    (h : TextRun fl ⟨[], []⟩ (.parse d.render :: os.map (Edit.ptrCall 0)) (.parsed none :: answers) w) (ha : ∀ a ∈ answers, ∃ j, a = .did j none) :
    ∃ p, w.parsers[0]? = some p ∧ Does d.render os p.json ∧
      ∃ d' : Doc, p.json = d'.render ∧ d'.wf ∧ follow d.root.plain (os.map fun o => (o, none)) = some d'.root.plain := by
  obtain ⟨p, P, P', h1, h2, h3, h4⟩ := text_parser_session fl hd hc h ha
  obtain ⟨k1, k2⟩ := C136_session_partial hd h2 hn hv h3
  rw [h2] at k1
  exact ⟨p, h1, h4 ▸ k1, h4 ▸ k2⟩

/-- **C136 for the text (partial)** With `SetKey` as well. -/
theorem C136_text_exact_partial (fl : FloatLib UInt64) {d : Doc} {os : List Edit} {answers : List PAns} {w : WorldP} (hd : d.wf) (hc : d.root.isContainer)
    (hn : ∀ o ∈ os, o.nested ∨ ∃ p q k, o = .setKey p q k) (hv : ValidAll d.root.plain os)
    (h : TextRun fl ⟨[], []⟩ (.parse d.render :: os.map (Edit.ptrCall 0)) (.parsed none :: answers) w) (ha : ∀ a ∈ answers, ∃ j, a = .did j none) :
    ∃ p l, w.parsers[0]? = some p ∧ l.map Prod.fst = os ∧ Session d.render l p.json ∧ (∀ x ∈ l, x.2 ≠ none → ∃ p q k, x.1 = .setKey p q k) ∧
      ∃ d' : Doc, p.json = d'.render ∧ d'.wf ∧ follow d.root.plain l = some d'.root.plain := by
  obtain ⟨p, P, P', h1, h2, h3, h4⟩ := text_parser_session fl hd hc h ha
  obtain ⟨l, k1, k2, k3, -, k4⟩ := C136_exact_partial hd h2 hn hv h3
  rw [h2] at k2
  exact ⟨p, l, h1, k1, h4 ▸ k2, k3, h4 ▸ k4⟩

end Jin.Go

namespace Jin
open Spec

/-- A case: `Delete` of the first of three elements puts the tree out of step; `Set` and `Add` after it still do to the text what they should. -/
def Sample.three : Doc where
  lead := []
  root := .obj [] [Sample.mem (str "a") (.arr [] [⟨[], .lit (str "1"), []⟩, ⟨[32], .lit (str "2"), []⟩, ⟨[], .lit (str "3"), []⟩]), Sample.mem (str "b") (.lit (str "4"))]
  trail := [10]

def Sample.onThree : List Edit := [.delete [str "a"] (str "0"), .set [str "b"] (.str (str "x")), .add [str "a"] (.lit (str "7"))]

def Sample.goThree (P : Parser) : List Edit → Option Parser
  | [] => some P
  | o :: os => match o.onParser P with
    | .done P' none => Sample.goThree P' os
    | _ => none

theorem goThree_session : ∀ {os : List Edit} {P P' : Parser}, Sample.goThree P os = some P' → ParserSession P os P'
  | [], _, _, h => by cases h; exact .nil
  | o :: os, P, P', h => by
    rw [Sample.goThree] at h
    split at h
    · next h1 => exact .cons h1 (goThree_session h)
    · cases h

example : Sample.three.wf ∧ (∀ o ∈ Sample.onThree, o.nested) ∧ Valid Sample.three.root.plain (Sample.onThree.map fun o => (o, none)) ∧
    ∃ P P', Parse Sample.three.render = .ok P ∧ ParserSession P Sample.onThree P' ∧ P'.json = str "{\"a\":[ 2,3,7],\"b\":\"x\"}\n" := by
  refine ⟨by decide +kernel, ?_, by decide +kernel, ?_⟩
  · intro o ho
    simp only [Sample.onThree, List.mem_cons, List.not_mem_nil, or_false] at ho
    rcases ho with rfl | rfl | rfl <;> rfl
  · have h : (match Parse Sample.three.render with
        | .ok P => (Sample.goThree P Sample.onThree).map Parser.json
        | _ => none) = some (str "{\"a\":[ 2,3,7],\"b\":\"x\"}\n") := by decide +kernel
    split at h
    · next P hP =>
      obtain ⟨P', h1, h2⟩ := Option.map_eq_some_iff.1 h
      exact ⟨P, P', hP, goThree_session h1, h2⟩
    · cases h

end Jin
