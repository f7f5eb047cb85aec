import Verif.Props.Commute
import Verif.Props.TextSession
import Verif.Props.Interleave
/-!
# Property C133 for the text: mutations in separate parts of a document commute
-/

namespace Jin.Go
open Spec

variable {fl : FloatLib UInt64}

theorem step_done {o : Edit} {json t : Bytes} (h : Step fl o json (.ok [.bytes t, .nil])) : o.run json = .done t none := by
  have e := step_run h
  revert e
  rcases o.run json with ⟨b, _ | er⟩ | _ <;> intro e <;> simp [mutVals] at e
  rw [e]

/-- **C133 for the text** Each call may be the function, the method of `JO` or a typed function that writes the same value. -/
theorem C133_text_commute {d : Doc} {o u : Edit} {j1 j2 a b : Bytes} (hd : d.wf) (ho : o.args) (hu : u.args) (hvo : o.applies d.root.plain)
    (hvu : u.applies d.root.plain) (hdv : d.diverge o.at u.at) (h1 : Step fl o d.render (.ok [.bytes j1, .nil])) (h2 : Step fl u j1 (.ok [.bytes a, .nil]))
    (h3 : Step fl u d.render (.ok [.bytes j2, .nil])) (h4 : Step fl o j2 (.ok [.bytes b, .nil])) : a = b ∧ ∃ d' : Doc, d'.wf ∧ a = d'.render :=
  C133_commute hd ho hu hvo hvu hdv (step_done h1) (step_done h2) (step_done h3) (step_done h4)

/-- **C133 for the text** `Set`, `Delete`, `Add` and `Insert` end without an error, in either order. -/
theorem C133_text_runs {d : Doc} {o u : Edit} (hd : d.wf) (ho : o.args) (hu : u.args) (hvo : o.applies d.root.plain)
    (hvu : u.applies d.root.plain) (hdv : d.diverge o.at u.at) (hl : o.looks = false) (hl' : u.looks = false) :
    ∃ j1 j2 a, callOf fl o d.render (.ok [.bytes j1, .nil]) ∧ callOf fl u j1 (.ok [.bytes a, .nil]) ∧
      callOf fl u d.render (.ok [.bytes j2, .nil]) ∧ callOf fl o j2 (.ok [.bytes a, .nil]) := by
  obtain ⟨j1, j2, a, h1, h2, h3, h4⟩ := C133_runs hd ho hu hvo hvu hdv hl hl'
  have key : ∀ {o : Edit} {json t : Bytes}, o.run json = .done t none → callOf fl o json (.ok [.bytes t, .nil]) := by
    intro o json t h
    have := callOf_run (fl := fl) o json
    rw [h] at this
    exact this
  exact ⟨j1, j2, a, key h1, key h2, key h3, key h4⟩

theorem session_done : ∀ {l : List Edit} {a b : Bytes}, TextSession fl a (l.map fun o => (o, none)) b → Does a l b
  | [], _, _, h => by cases h; exact .nil
  | o :: l, a, b, h => by
    cases h with
    | cons h1 h => exact .cons (step_done h1) (session_done h)

/-- **C133 for the text** Sessions of functions, methods of `JO` and typed functions, interleaved differently. -/
theorem C133_text_sessions {d : Doc} {p q : List Text} {w x : Json} {l m : List Edit} {a b : Bytes} (hd : d.wf) (hp : d.get? p = some w)
    (hq : d.get? q = some x) (hdv : d.diverge p q) (hl : ∀ o ∈ l, o.inside p ∨ o.inside q) (hm : ∀ o ∈ m, o.inside p ∨ o.inside q)
    (h1 : l.filter (Edit.inside p) = m.filter (Edit.inside p)) (h2 : l.filter (Edit.inside q) = m.filter (Edit.inside q))
    (ha : TextSession fl d.render (l.map fun o => (o, none)) a) (hva : Valid d.root.plain (l.map fun o => (o, none)))
    (hb : TextSession fl d.render (m.map fun o => (o, none)) b) (hvb : Valid d.root.plain (m.map fun o => (o, none))) : a = b :=
  C133_sessions hd hp hq hdv hl hm h1 h2 (session_done ha) hva (session_done hb) hvb

/-- A case: `Insert` into an array and `Delete` from an object. -/
example : ∃ j1 j2 a, Call fl (go% Insert) [.bytes Sample.doc.render, .int 1, .bytes (str "7")] Sample.toArr (.ok [.bytes j1, .nil]) ∧
    Call fl (go% Delete) [.bytes j1] [str "o", str "p"] (.ok [.bytes a, .nil]) ∧
    Call fl (go% Delete) [.bytes Sample.doc.render] [str "o", str "p"] (.ok [.bytes j2, .nil]) ∧
    Call fl (go% Insert) [.bytes j2, .int 1, .bytes (str "7")] Sample.toArr (.ok [.bytes a, .nil]) :=
  C133_text_runs (o := .insert Sample.toArr 1 (.lit (str "7"))) (u := .delete [str "o"] (str "p")) Sample.doc_wf (by decide +kernel) (by decide +kernel)
    (by decide +kernel) (by decide +kernel) (diverge_of (a := 1) (b := 3) (by decide +kernel) (by decide +kernel) (.inl (by decide))) rfl rfl

end Jin.Go
