import Verif.Props.TextSync
import Verif.Props.Text
import Verif.Props.ParserRefuse
import Verif.Props.RobustParse
/-!
# Property C123: more about the parsers of the text

C66, C67, C69, C89 and C92 for the text of /repo: programs on its parsers (`TRun`, `Verif.Go.ParserAll`).
-/

namespace Jin.Go
open Spec

/-- The function with the name of the typed method. -/
def TMut.fn : TMut → Id
  | .setString _ => go% SetString | .setInt _ => go% SetInt | .setFloat _ => go% SetFloat | .setBool _ => go% SetBool
  | .addKeyValueString .. => go% AddKeyValueString | .addKeyValueInt .. => go% AddKeyValueInt
  | .addKeyValueFloat .. => go% AddKeyValueFloat | .addKeyValueBool .. => go% AddKeyValueBool
  | .addString _ => go% AddString | .addInt _ => go% AddInt | .addFloat _ => go% AddFloat | .addBool _ => go% AddBool
  | .insertString .. => go% InsertString | .insertInt .. => go% InsertInt | .insertFloat .. => go% InsertFloat | .insertBool .. => go% InsertBool

/-- What is left out: `Parser.SetString` quotes in another way than `SetString` unless the text is quoted by both. -/
def TMut.plain (fl : FloatLib UInt64) : TMut → Prop
  | .setString v => v.head? ≠ some 34 ∧ v.getLast? ≠ some 34 ∧ formatType (fun s => (fl.parse s).isSome) v = quote v
  | _ => True

theorem pick {h₀ h : NHeap} {c : Nat} {j : Bytes} {up : Option Nat} {t : PTree} {r : PResP} {R : PRes}
    (h1 : presVals r = .ok [.heap h, .ptr c, .bytes j, .nil]) (h2 : PRel h₀ up t r R) : ∃ P', R = .done P' none ∧ P'.json = j := by
  cases r with
  | panic => cases h1
  | done p' h' e =>
    cases R with
    | panic => exact h2.elim
    | done P' e' =>
      obtain ⟨rfl, t', hr', -⟩ := h2
      cases e with
      | some e => cases h1
      | none => cases h1; exact ⟨P', rfl, hr'.json.symm⟩

theorem mut_over {m : Mut} {j : Bytes} (h : ∃ e', m = .done j e') : ∃ e, mutVals m = .ok [.bytes j, e] := by
  obtain ⟨e', rfl⟩ := h
  cases e' with
  | none => exact ⟨_, rfl⟩
  | some e => exact ⟨_, rfl⟩

/-- **C123 (partial)** A typed mutator of the text on a parser that a program holds, on a path that is not empty, that returns no error, leaves the
text that the function of the same name of the text makes of the text it had (C69).  Missing: the empty path, and for `SetString` the texts
that the two quote in different ways (`C69_fails`). -/
theorem C123_typed_text_partial (fl : FloatLib UInt64) {w : WorldP} (hw : Left fl w) {k : Nat} {p : ParserP} (hp : w.parsers[k]? = some p) (m : TMut)
    (hm : m.plain fl) {path : List Bytes} (hne : path ≠ []) {h : NHeap} {c : Nat} {j : Bytes}
    (hs : Call fl m.call.1 (.heap w.heap :: .ptr p.core :: .bytes p.json :: m.call.2) path (.ok [.heap h, .ptr c, .bytes j, .nil])) :
    ∃ e, Call fl m.fn (.bytes p.json :: m.call.2) path (.ok [.bytes j, e]) := by
  obtain ⟨hh, hlt, P, up, t, hr⟩ := hw.rep hp
  obtain ⟨P', h1, rfl⟩ := pick ((TMut.text fl hh p hlt m path).unique hs) (TMut.sim fl m hr path)
  rw [hr.json]
  have fin : ∀ {m : Mut} {f : Id} {args : List Val}, Call fl f args path (mutVals m) → (∃ e', m = .done P'.json e') →
      ∃ e, Call fl f args path (.ok [.bytes P'.json, e]) := by
    intro m f args ht hm
    obtain ⟨e, he⟩ := mut_over hm
    exact ⟨e, he ▸ ht⟩
  have set : ∀ {v : Bytes}, P.Set v path = .done P' none → ∃ e', Jin.Set P.json v path = .done P'.json e' := by
    intro v h
    obtain ⟨nd, hv⟩ := set_walks hne h
    exact C54_set hne hv h
  have addS := C69_add_partial fl (fun s => (fl.parse s).isSome) (p := P) (p' := P') hne
  have kvS := fun k => C69_addKeyValue_partial fl (fun s => (fl.parse s).isSome) (p := P) (p' := P') (k := k) hne
  have insS := fun i => C69_insert fl (fun s => (fl.parse s).isSome) (p := P) (p' := P') (i := i) (path := path)
  cases m with
  | setString v =>
    obtain ⟨q1, q2, q3⟩ := hm
    refine fin (text_SetString fl P.json path v) ?_
    rw [SetString, q3]
    simp only [TMut.val, Parser.SetString] at h1
    split at h1
    · rename_i a z ha hz
      rw [ha] at q1
      rw [hz] at q2
      rw [if_pos (by simp_all)] at h1
      exact set h1
    · cases h1
  | setInt n => exact fin (text_SetInt fl P.json path n) (set h1)
  | setFloat x => exact fin (text_SetFloat fl P.json path x) (set h1)
  | setBool b => exact fin (text_SetBool fl P.json path b) (set h1)
  | addKeyValueString key v =>
    have h2 := (kvS key).1 v h1
    have ht := text_AddKeyValueString fl P.json path key v
    by_cases h0 : (key.length == 0) = true
    · simp only [TMut.val, Parser.AddKeyValueString, h0] at h1
      cases h1
    · rw [if_neg h0] at ht
      exact fin ht ⟨_, h2⟩
  | addKeyValueInt key n => exact fin (text_AddKeyValueInt fl P.json path key n) ⟨_, (kvS key).2.1 n h1⟩
  | addKeyValueFloat key x => exact fin (text_AddKeyValueFloat fl P.json path key x) ⟨_, (kvS key).2.2.1 x h1⟩
  | addKeyValueBool key b => exact fin (text_AddKeyValueBool fl P.json path key b) ⟨_, (kvS key).2.2.2 b h1⟩
  | addString v => exact fin (text_AddString fl P.json path v) ⟨_, addS.1 v h1⟩
  | addInt n => exact fin (text_AddInt fl P.json path n) ⟨_, addS.2.1 n h1⟩
  | addFloat x => exact fin (text_AddFloat fl P.json path x) ⟨_, addS.2.2.1 x h1⟩
  | addBool b => exact fin (text_AddBool fl P.json path b) ⟨_, addS.2.2.2 b h1⟩
  | insertString i v =>
    have h2 := (insS i).1 v h1
    have ht := text_InsertString fl P.json path i v
    by_cases h0 : i < 0
    · simp only [TMut.val, Parser.InsertString, if_pos h0] at h1
      cases h1
    · rw [if_neg h0] at ht
      exact fin ht ⟨_, h2⟩
  | insertInt i n => exact fin (text_InsertInt fl P.json path i n) ⟨_, (insS i).2.1 n h1⟩
  | insertFloat i x => exact fin (text_InsertFloat fl P.json path i x) ⟨_, (insS i).2.2.1 x h1⟩
  | insertBool i b => exact fin (text_InsertBool fl P.json path i b) ⟨_, (insS i).2.2.2 b h1⟩

/-- **C123** `Insert` of the text on a parser that a program holds, on any path, that returns no error, leaves the text that the function of the
text makes of the text it had (C67). -/
theorem C123_insert_text (fl : FloatLib UInt64) {w : WorldP} (hw : Left fl w) {k : Nat} {p : ParserP} (hp : w.parsers[k]? = some p) (i : Int) (v : Bytes)
    {path : List Bytes} {h : NHeap} {c : Nat} {j : Bytes}
    (hs : Call fl (go% Parser.Insert) [.heap w.heap, .ptr p.core, .bytes p.json, .int i, .bytes v] path (.ok [.heap h, .ptr c, .bytes j, .nil])) :
    Call fl (go% Insert) [.bytes p.json, .int i, .bytes v] path (.ok [.bytes j, .nil]) := by
  obtain ⟨hh, hlt, P, up, t, hr⟩ := hw.rep hp
  obtain ⟨P', h1, rfl⟩ := pick ((text_Parser_Insert fl hh p hlt i v path).unique hs) (insert_sim hr i v path)
  rw [hr.json]
  exact (text_Insert fl P.json path i (some v)).done (C67_text h1)

/-- **C123** The texts on which `Parse` of the text panics, whatever the program did before (C92). -/
theorem C123_parse_panics (fl : FloatLib UInt64) {w : WorldP} (hw : Left fl w) (json : Bytes) :
    Call1 fl (go% Parse) [.heap w.heap, .bytes json] .panic ↔
    2 ≤ json.length ∧ (Ws json = true ∨ (∃ p q, json = p ++ q ∧ (scan p).depth < 0) ∨
      ((∃ c t, json = c :: t ∧ isWs c = true) ∧
        ∃ pre post, json = pre ++ 58 :: post ∧ (scan pre).inStr = false ∧ (scan pre).closed = false)) := by
  rw [← C92_parse]
  obtain ⟨vs, L, hL, hh⟩ := hw.rel
  have ht := text_Parse fl hh (json := json)
  have hs := parse_sim json w.heap
  cases hx : ParseP json w.heap with
  | ok x =>
    obtain ⟨p, h'⟩ := x
    simp only [hx] at ht hs
    refine ⟨fun h => (nomatch ht.1.unique h), fun h => ?_⟩
    rw [h] at hs
    exact hs.elim
  | err e =>
    simp only [hx] at ht hs
    obtain ⟨h', ht, -⟩ := ht
    refine ⟨fun h => (nomatch ht.unique h), fun h => ?_⟩
    rw [h] at hs
    exact hs.elim
  | panic =>
    simp only [hx] at ht hs
    refine ⟨fun _ => ?_, fun _ => ht⟩
    cases hp : Parse json with
    | panic => rfl
    | ok P => rw [hp] at hs; exact hs.elim
    | err e => rw [hp] at hs; exact hs.elim

section
variable (fl : FloatLib UInt64) (calls : List TCall) (hc : ∀ c ∈ calls, ∀ k pad b, c ≠ .base (.tree k pad b)) {answers : List TAns} {w : WorldP}
  (h : TRun fl ⟨[], []⟩ calls answers w) {k : Nat} {p : ParserP} {P : Parser} (hp : w.parsers[k]? = some p) (hP : (tVals fl [] calls).2[k]? = some P)
include h hc hp hP

theorem run_rep : Closed w.heap ∧ p.core < w.heap.length ∧ ∃ up t, Rep w.heap p P up t := by
  obtain ⟨w', L, h1, h2, hL⟩ := t_run (fl := fl) WRel.empty (fun _ _ h => by simp at h) calls hc
  obtain ⟨-, rfl⟩ := h.unique h1
  rcases hL.slot k with ⟨-, k2, -⟩ | ⟨s, k1, k2, k3⟩
  · rw [k2] at hp; cases hp
  rw [k2] at hp
  rw [k3] at hP
  cases hp
  cases hP
  have hs := hL.rep k s k1
  exact ⟨h2, by rw [hs.core]; exact hs.holds.here.lt _ (ptr_mem s.t), s.up, s.t, hs⟩

/-- **C123 (partial)** Of a parser that a program holds and that `Parse` and calls of `PCall.ok` have made, `GetNew` of the text gives the value at
a path that its tree resolves, up to whitespace (C66).  Missing: what C66 misses. -/
theorem C123_getNew_partial {d : Doc} (hd : Reached P d) {path : List Text} {v : Json} (hne : path ≠ []) (hg : d.get? path = some v) {nd : Node}
    (hw : P.core.walk path = .ok nd) :
    ∃ v' : Json, Call fl (go% Parser.GetNew) [.heap w.heap, .ptr p.core, .bytes p.json] path (.ok [.heap w.heap, .ptr p.core, .bytes p.json, .bytes v'.content]) ∧
      v'.wf ∧ v'.strip = v.strip := by
  obtain ⟨hh, hlt, up, t, hr⟩ := run_rep fl calls hc h hp hP
  obtain ⟨v', h1, h2, h3⟩ := C66_getNew_partial hd hne hg hw
  have ht := text_Parser_GetNew fl hh p hr path
  rw [hw, h1] at ht
  exact ⟨v', ht, h2, h3⟩

/-- **C123 (partial)** `AddKeyValue` of the text refuses a key that the object of such a parser has, and leaves its text (C89).  Missing: what C89
misses. -/
theorem C123_refuse_partial {d : Doc} (hd : Reached P d) {key : Text} (hk0 : key ≠ []) :
    (∀ (v : Bytes) (g : Text) (ms : List (Member Json)), d.root = .obj g ms → (∃ m ∈ ms, m.key = key) →
      ∃ h c, Call fl (go% Parser.AddKeyValue) [.heap w.heap, .ptr p.core, .bytes p.json, .bytes key, .bytes v] []
        (.ok [.heap h, .ptr c, .bytes p.json, .err (.keyAlreadyExist key)])) ∧
    (∀ (v : Json) (path : List Text) (g : Text) (ms : List (Member Json)) (nd : Node), path ≠ [] → P.core.walk path = .ok nd →
      d.get? path = some (.obj g ms) → (∃ m ∈ ms, m.key = key) → v.wf →
      ∃ h c, Call fl (go% Parser.AddKeyValue) [.heap w.heap, .ptr p.core, .bytes p.json, .bytes key, .bytes v.render] path
        (.ok [.heap h, .ptr c, .bytes p.json, .err (.keyAlreadyExist key)])) := by
  obtain ⟨hh, hlt, up, t, hr⟩ := run_rep fl calls hc h hp hP
  have fin : ∀ {v : Bytes} {path : List Bytes} {P' : Parser} {e : Err}, P.AddKeyValue key v path = .done P' (some e) → P'.json = P.json →
      ∃ h c, Call fl (go% Parser.AddKeyValue) [.heap w.heap, .ptr p.core, .bytes p.json, .bytes key, .bytes v] path (.ok [.heap h, .ptr c, .bytes p.json, .err e]) := by
    intro v path P' e h1 hj
    have ht := text_Parser_AddKeyValue fl hh p hlt key v path
    have hs := addKeyValue_sim hr key v path
    rw [h1] at hs
    cases hx : p.AddKeyValue w.heap key v path with
    | panic => rw [hx] at hs; exact hs.elim
    | done p' h' e' =>
      rw [hx] at hs ht
      obtain ⟨rfl, t', hr', -⟩ := hs
      have : p'.json = p.json := by rw [hr'.json, hj, hr.json]
      simp only [presVals, this, errVal] at ht
      exact ⟨h', p'.core, ht⟩
  refine ⟨fun v g ms hroot hm => fin (C89_root_partial v (session_sync hd) hroot hk0 hm) rfl, fun v path g ms nd hne hw hg hm hv => ?_⟩
  obtain ⟨P', h1, h2⟩ := C89_nested_partial (session_sync hd) hne hw hg hk0 hm hv
  exact fin h1 h2

end

/-! Cases of the hypotheses. -/

/-- `Parse` of the text panics on `[1]]`. -/
example (fl : FloatLib UInt64) : Call1 fl (go% Parse) [.heap [], .bytes (str "[1]]")] .panic :=
  (C123_parse_panics fl (w := ⟨[], []⟩) ⟨[], [], by simp, .nil⟩ _).2
    ⟨by decide +kernel, .inr (.inl ⟨str "[1]]", [], by simp, by decide +kernel⟩)⟩

/-- The sample is parsed: the parser is one of those that `C123_getNew_partial` and `C123_refuse_partial` speak of, and `SetInt` of the text
on it returns no error, as `C123_typed_text_partial` asks. -/
example (fl : FloatLib UInt64) : ∃ (w : WorldP) (p : ParserP) (P : Parser), Left fl w ∧
    TRun fl ⟨[], []⟩ [.base (.parse Sample.doc.render)] (tVals fl [] [.base (.parse Sample.doc.render)]).1 w ∧ w.parsers[0]? = some p ∧
    (tVals fl [] [.base (.parse Sample.doc.render)]).2[0]? = some P ∧ Reached P Sample.doc ∧ (∃ nd, P.core.walk Sample.toTrue = .ok nd) ∧
    (TMut.setInt 7).plain fl ∧ ∃ (h : NHeap) (c : Nat) (j : Bytes),
      Call fl (TMut.setInt 7).call.1 (.heap w.heap :: .ptr p.core :: .bytes p.json :: (TMut.setInt 7).call.2) Sample.toTrue (.ok [.heap h, .ptr c, .bytes j, .nil]) := by
  obtain ⟨p1, h1, -⟩ := parse_sync Sample.doc_wf rfl
  have r1 := Reached.parse Sample.doc_wf rfl h1
  have o1 : PCall.ok Sample.doc (.set Sample.toTrue (.lit (str "7"))) :=
    ⟨by decide +kernel, by decide +kernel, rfl, .lit bTrue, ⟨Sample.get_true, by decide +kernel⟩, rfl⟩
  obtain ⟨p2, d2, h2, -, -⟩ := C64_call_partial r1 o1
  have h2 : p1.SetInt 7 Sample.toTrue = .done p2 none := by
    have e7 : itoa 7 = str "7" := by decide +kernel
    rw [Parser.SetInt, e7]
    exact h2
  have e1 : tVals fl [] [.base (.parse Sample.doc.render)] = ([.base (.parsed none)], [p1]) := by
    simp [tVals, tVal, valStep, h1, TAns.isPanic, PAns.isPanic]
  obtain ⟨w, h⟩ := (C108_sessions fl [.base (.parse Sample.doc.render)] (by simp) _).2 rfl
  obtain ⟨hl, -⟩ := C108_reads fl _ (by simp) _ w h
  rw [e1] at hl
  have hp : w.parsers[0]? = some (w.parsers[0]'(by rw [hl]; exact Nat.one_pos)) := by simp
  have hP : (tVals fl [] [.base (.parse Sample.doc.render)]).2[0]? = some p1 := by rw [e1]; rfl
  obtain ⟨hh, hlt, up, t, hr⟩ := run_rep fl _ (by simp) h hp hP
  refine ⟨w, _, p1, ⟨_, _, by simp, h⟩, h, hp, hP, r1, set_walks (by decide +kernel) h2, trivial, ?_⟩
  have ht := TMut.text fl hh _ hlt (.setInt 7) Sample.toTrue
  have hs := TMut.sim fl (.setInt 7) hr Sample.toTrue
  rw [show (TMut.setInt 7).val fl p1 Sample.toTrue = .done p2 none from h2] at hs
  cases hx : (TMut.setInt 7).ptr fl w.heap _ Sample.toTrue with
  | panic => rw [hx] at hs; exact hs.elim
  | done p' h' e' =>
    rw [hx] at hs ht
    obtain ⟨rfl, -⟩ := hs
    exact ⟨h', p'.core, p'.json, ht⟩

end Jin.Go
