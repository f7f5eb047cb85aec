import Verif.Props.Builds
import Verif.Props.TextSession
/-!
# Property C131 for the text: every JSON value can be built with small additions
-/

namespace Jin.Go
open Spec

variable {fl : FloatLib UInt64}

/-- Calls of the functions of the text, each on the text that the former left, and none returns an error. -/
inductive Calls (fl : FloatLib UInt64) : Bytes → List Edit → Bytes → Prop
  | nil {json} : Calls fl json [] json
  | cons {json json' json'' o os} : callOf fl o json (.ok [.bytes json', errVal none]) → Calls fl json' os json'' → Calls fl json (o :: os) json''

theorem calls_of {os : List Edit} : ∀ {a b : Bytes}, Does a os b → Calls fl a os b := by
  induction os with
  | nil => intro a b h; cases h; exact .nil
  | cons o os ih =>
    intro a b h
    cases h with
    | cons h hs =>
      have := callOf_run (fl := fl) o a
      rw [h] at this
      exact .cons this (ih hs)

/-- **C131 for the text** `Add` and `AddKeyValue`, each of one scalar or one empty container, build every array and object from `[]` or `{}`. -/
theorem C131_text_build (j : Json) (hw : j.wf) (hd : j.distinct) (hc : j.isContainer) :
    ∃ os : List Edit, (∀ o ∈ os, o.small) ∧ Calls fl (if j.kind = .arr then str "[]" else str "{}") os j.plain.text := by
  obtain ⟨os, h1, h2⟩ := C131_build j hw hd hc
  exact ⟨os, h1, calls_of h2⟩

/-- **C131 for the text** Within a document. -/
theorem C131_text_inside (j : Json) (hw : j.wf) (hd : j.distinct) (d : Doc) (p : List Text) (hwf : d.wf) (h : d.get? p = some j.shell)
    (hn : d.narrowAfter p) : ∃ os : List Edit, (∀ o ∈ os, o.small) ∧ Calls fl d.render os (d.set p j.strip).render := by
  obtain ⟨os, h1, h2⟩ := C131_inside j hw hd d p hwf h hn
  exact ⟨os, h1, calls_of h2⟩

/-- **C131 for the text** Every document can be made of every other of the same kind: calls of `Delete`, one of `Flatten`, and small additions. -/
theorem C131_text_reach (d d' : Doc) (hd : d.wf) (hd' : d'.wf) (hc : d.root.isContainer) (hk : d'.root.kind = d.root.kind) (hu : d'.root.distinct) :
    ∃ os t t' os' z, (∀ o ∈ os, ∃ q, o = Edit.delete [] q) ∧ (∀ o ∈ os', o.small) ∧ Calls fl d.render os t ∧
      Call1 fl (go% Flatten) [.bytes t] (.ok [.bytes t']) ∧ Calls fl t' os' z ∧ Call1 fl (go% Flatten) [.bytes d'.render] (.ok [.bytes z]) := by
  obtain ⟨os, t, os', h1, h2, h3, h4⟩ := C131_reach d d' hd hd' hc hk hu
  exact ⟨os, t, _, os', _, h1, h2, calls_of h3, text_Flatten fl t, calls_of h4, text_Flatten fl d'.render⟩

/-- A case of the hypotheses. -/
example : ∃ os : List Edit, (∀ o ∈ os, o.small) ∧ Calls fl (str "{}") os (str "{\"a\":[1,{\"b\":\"]\\\"b\\\"}\",\"a\":[\"x\"]}],\"b\":{},\"\":[[]]}") := by
  have h := C131_text_build (fl := fl) Sample.tangled (by decide +kernel) (by decide +kernel) (by decide +kernel)
  have e : Sample.tangled.plain.text = str "{\"a\":[1,{\"b\":\"]\\\"b\\\"}\",\"a\":[\"x\"]}],\"b\":{},\"\":[[]]}" := by decide +kernel
  rw [e] at h
  exact h

end Jin.Go
