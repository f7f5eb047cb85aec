import Verif.Props.Float
import Verif.Props.TextRound
import Verif.Props.TextUtf8
import Verif.Props.TextUtf8Parser
/-!
# Property C128 for the text: floating point numbers

The calls of C128 for the text of /repo (`Verif.Go.Source`), and C39, C121 and C122 without a hypothesis about `strconv`.
-/

namespace Jin.Go
open Spec

section
variable (d : Doc) (p : List Text)

/-- **C128** `SetFloat` and then `GetFloat` return the same 64 bits. -/
theorem C128_text_set (w : Json) (x : UInt64) (hd : d.wf) (hp : p ≠ []) (h : d.get? p = some w) (hx : isNumberOrInf x) :
    ∃ t, Call goFloats (go% SetFloat) [.bytes d.render, .float x] p (.ok [.bytes t, .nil]) ∧
      Call goFloats (go% GetFloat) [.bytes t] p (.ok [.float x, .nil]) := by
  obtain ⟨t, h1, h2⟩ := C128_set d p w x hd hp h hx
  exact ⟨t, (text_SetFloat _ _ p x).done h1, (text_GetFloat _ t p).one h2⟩

/-- **C128** `AddFloat` puts the number behind the others. -/
theorem C128_text_add (g : Text) (es : List (Elem Json)) (x : UInt64) (hd : d.wf) (h : d.get? p = some (.arr g es)) (hx : isNumberOrInf x) :
    ∃ t, Call goFloats (go% AddFloat) [.bytes d.render, .float x] p (.ok [.bytes t, .nil]) ∧
      ∀ q, readIndex q = some es.length → Call goFloats (go% GetFloat) [.bytes t] (p ++ [q]) (.ok [.float x, .nil]) := by
  obtain ⟨t, h1, h2⟩ := C128_add d p g es x hd h hx
  exact ⟨t, (text_AddFloat _ _ p x).done h1, fun q hq => (text_GetFloat _ t _).one (h2 q hq)⟩

/-- **C128** What `AddKeyValueFloat` has put under its key, `GetFloat` returns. -/
theorem C128_text_addKeyValue (g k : Text) (ms : List (Member Json)) (x : UInt64) (hd : d.wf) (h : d.get? p = some (.obj g ms)) (hk : strOk k)
    (hx : isNumberOrInf x) (t : Bytes) (ha : Call goFloats (go% AddKeyValueFloat) [.bytes d.render, .bytes k, .float x] p (.ok [.bytes t, .nil])) :
    Call goFloats (go% GetFloat) [.bytes t] (p ++ [k]) (.ok [.float x, .nil]) :=
  (text_GetFloat _ t _).one (C128_addKeyValue d p g k ms x hd h hk hx t ((text_AddKeyValueFloat _ _ p k x).done_inv ha))

/-- **C128** `InsertFloat`, where `Insert` gives JSON (C23), puts the number at its index. -/
theorem C128_text_insert (g : Text) (es : List (Elem Json)) (n : Nat) (x : UInt64) (hd : d.wf) (h : d.get? p = some (.arr g es)) (hn : n < es.length)
    (hb : (n : Int) ≤ 9223372036854775807) (hok : n + 1 < es.length ∨ n = 0 ∨ ∃ e, es[n]? = some e ∧ e.l = []) (hx : isNumberOrInf x) :
    ∃ t, Call goFloats (go% InsertFloat) [.bytes d.render, .int n, .float x] p (.ok [.bytes t, .nil]) ∧
      ∀ q, readIndex q = some n → Call goFloats (go% GetFloat) [.bytes t] (p ++ [q]) (.ok [.float x, .nil]) := by
  obtain ⟨t, h1, h2⟩ := C128_insert d p g es n x hd h hn hb hok hx
  exact ⟨t, (text_InsertFloat _ _ p n x).done h1, fun q hq => (text_GetFloat _ t _).one (h2 q hq)⟩

/-- **C128** In a text of RFC 8259, `SetFloat` and `AddFloat` of a number leave such a text. -/
theorem C128_text_rfc (x : UInt64) (hd : d.wf) (hs : d.root.strict) (hx : isFinite x) :
    (∀ w, p ≠ [] → d.get? p = some w → ∃ t, Call goFloats (go% SetFloat) [.bytes d.render, .float x] p (.ok [.bytes t, .nil]) ∧ RText t) ∧
    (∀ g es, d.get? p = some (.arr g es) → ∃ t, Call goFloats (go% AddFloat) [.bytes d.render, .float x] p (.ok [.bytes t, .nil]) ∧ RText t) := by
  obtain ⟨h1, h2, -⟩ := C128_rfc d p x hd hs hx
  refine ⟨fun w hp h => ?_, fun g es h => ?_⟩
  · obtain ⟨t, a, b⟩ := h1 w hp h
    exact ⟨t, (text_SetFloat _ _ p x).done a, b⟩
  · obtain ⟨t, a, b⟩ := h2 g es h
    exact ⟨t, (text_AddFloat _ _ p x).done a, b⟩

/-- **C128** `GetFloat` of a number returns the nearest number of 64 bits, unless the number is too large; then it returns `-1` and an error. -/
theorem C128_text_nearest (n : NumText) (hd : d.wf) (hp : p ≠ []) (h : d.get? p = some (.lit n.text)) (hn : n.wf) (he : n.expo < 100000) :
    (¬ n.tooBig → ∃ b, IsNearest (n.digits * 10 ^ n.tens) (10 ^ n.tenths) b ∧
      ∃ x : UInt64, Call goFloats (go% GetFloat) [.bytes d.render] p (.ok [.float x, .nil]) ∧ x.toNat = (if n.neg then 2 ^ 63 else 0) + b) ∧
    (n.tooBig → Call goFloats (go% GetFloat) [.bytes d.render] p (.ok [.int (-1), .err (.floatParse n.text)])) := by
  obtain ⟨h1, h2⟩ := C128_nearest d p n hd hp h hn he
  refine ⟨fun hb => ?_, fun hb => (text_GetFloat _ _ p).bad (h2 hb)⟩
  obtain ⟨b, a1, x, a2, a3⟩ := h1 hb
  exact ⟨b, a1, x, (text_GetFloat _ _ p).one a2, a3⟩

/-- **C128** `GetType` calls a number a number, unless it is too large (C39). -/
theorem C128_text_type (n : NumText) (hd : d.wf) (h : d.get? p = some (.lit n.text)) (hp : p ≠ [] ∨ d.lead = [] ∧ d.trail = []) (hn : n.wf)
    (hs : n.expo < 100000 ∨ n.text.length ≤ 9000) :
    (¬ n.tooBig → Call goFloats (go% GetType) [.bytes d.render] p (.ok [.bytes (str "number"), .nil])) ∧
    (n.tooBig → Call goFloats (go% GetType) [.bytes d.render] p (.ok [.bytes (str "string"), .nil])) :=
  C39_number_text goFloats C128_accepts hd h hp hn hs

end

theorem goFloats_plain (v : Bytes) (h : (goFloats.parse v).isSome = true) : (Json.lit v).wf :=
  C128_accepts_plain v (by rw [← C128_accepts]; exact h)

/-- **C128** Strings survive (C13, C44), whatever looks like a number among them. -/
theorem C128_text_string (d : Doc) (p : List Text) (w : Json) (s : Text) (hd : d.wf) (hp : p ≠ []) (h : d.get? p = some w) (h1 : strOk s)
    (h2 : ¬ (s.head? = some 91 ∧ s.getLast? = some 93)) (h3 : ¬ (s.head? = some 123 ∧ s.getLast? = some 125)) :
    ∃ t, Call goFloats (go% SetString) [.bytes d.render, .bytes s] p (.ok [.bytes t, .nil]) ∧
      Call goFloats (go% GetString) [.bytes t] p (.ok [.bytes s, .nil]) :=
  C118_string goFloats d goFloats_plain p w hd hp h s h1 h2 h3

theorem C128_text_strings (ss : List Text) (hne : ss ≠ []) (hs : ∀ s ∈ ss, PlainText s) :
    ∃ t, Call1 goFloats (go% MakeArrayString) [.strs ss] (.ok [.bytes t]) ∧
      Call goFloats (go% GetStringArray) [.bytes t] [] (.ok [.strs ss, .nil]) := by
  obtain ⟨t, h1, h2, -⟩ := C118_strings goFloats goFloats_plain ss hne hs
  exact ⟨t, h1, h2⟩

/-- **C128** Programs that are given UTF-8 get UTF-8 (C121, C122), with floating point numbers too. -/
theorem C128_text_utf8 :
    (∀ (body : Bytes) (op : JOp UInt64), Utf8 body → (∀ v ∈ (joCall op).2.1, v.utf8) →
      GivesUtf8 goFloats (joCall op).1 (.bytes body :: (joCall op).2.1) (joCall op).2.2) ∧
    (∀ (calls : List TCall) (answers : List TAns) (w : WorldP), (∀ c ∈ calls, c.utf8) → TRun goFloats ⟨[], []⟩ calls answers w →
      (∀ a ∈ answers, a.utf8) ∧ ∀ q ∈ w.parsers, Utf8 q.json) :=
  ⟨fun _ op hu ha => C121_jo goFloats C128_utf8 hu op ha, fun calls answers w hc hr =>
    ⟨C122_answers goFloats C128_utf8 calls hc answers w hr, C122_texts goFloats C128_utf8 calls hc answers w hr⟩⟩

/-- **C128 does not hold of what is not a number**, and C47 does not hold: `SetFloat` writes `+Inf`, and `MakeArrayFloat` drops `12.5` and panics on `5`. -/
theorem C128_text_fails :
    Call goFloats (go% SetFloat) [.bytes (str "{\"a\":1}"), .float 0x7FF0000000000000] [str "a"] (.ok [.bytes (str "{\"a\":+Inf}"), .nil]) ∧
    Call1 goFloats (go% MakeArrayFloat) [.floats [0x4029000000000000]] (.ok [.bytes (str "[]")]) ∧
    Call1 goFloats (go% MakeArrayFloat) [.floats [0x4014000000000000]] .panic := by
  refine ⟨(text_SetFloat _ _ _ _).done C128_fails.1, ?_, ?_⟩
  · have t := text_MakeArrayFloat goFloats (some [0x4029000000000000])
    rw [C128_makeArray_fails.1] at t
    exact t
  · have t := text_MakeArrayFloat goFloats (some [0x4014000000000000])
    rw [C128_makeArray_fails.2] at t
    exact t

/-- A case of the hypotheses: `0.1` in place of the `1` of the sample document, and the element `-1.5e3` read. -/
example : (∃ t, Call goFloats (go% SetFloat) [.bytes Sample.doc.render, .float 0x3FB999999999999A] [str "a"] (.ok [.bytes t, .nil]) ∧
      Call goFloats (go% GetFloat) [.bytes t] [str "a"] (.ok [.float 0x3FB999999999999A, .nil])) ∧
    Call goFloats (go% GetFloat) [.bytes Sample.doc.render] [str "o", str "r"] (.ok [.float 0xC097700000000000, .nil]) := by
  refine ⟨C128_text_set Sample.doc [str "a"] (.lit (str "1")) _ Sample.doc_wf (by decide) (by decide +kernel) (by decide +kernel), ?_⟩
  exact (text_GetFloat _ _ _).one (by decide +kernel)

end Jin.Go
