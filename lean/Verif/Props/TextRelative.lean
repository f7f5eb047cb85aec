import Verif.Props.Relative
import Verif.Props.TextCommute
/-!
# Properties C134 and C135 for the text
-/

namespace Jin.Go
open Spec

variable {fl : FloatLib UInt64}

theorem does_text : ∀ {l : List Edit} {a b : Bytes}, Does a l b → TextSession fl a (l.map fun o => (o, none)) b
  | [], _, _, h => by cases h; exact .nil
  | o :: l, a, b, h => by
    cases h with
    | cons h1 h =>
      have := callOf_run (fl := fl) o a
      rw [h1] at this
      exact .cons (.fn this) (does_text h)

/-- **C134 for the text** Each call may be the function, the method of `JO` or a typed function that writes the same value. -/
theorem C134_text_part {d : Doc} {p : List Text} {w : Json} {l : List Edit} {part part' json : Bytes} (hd : d.wf) (hp : p ≠ []) (hw : d.get? p = some w)
    (hc : w.isContainer) (hv : Valid w.plain (l.map fun o => (o, none))) (h0 : Call fl (go% Get) [.bytes d.render] p (.ok [.bytes part, .nil]))
    (h1 : TextSession fl part (l.map fun o => (o, none)) part')
    (h2 : TextSession fl d.render ((l.map (Edit.under p)).map fun o => (o, none)) json) :
    Call fl (go% Set) [.bytes d.render, .bytes part'] p (.ok [.bytes json, .nil]) ∧ Call fl (go% Get) [.bytes json] p (.ok [.bytes part', .nil]) := by
  have hg : Get d.render p = .ok part := by
    have := h0.unique (text_Get fl d.render p)
    revert this
    rcases Get d.render p with _ | _ | _ <;> intro e <;> simp [oneVal] at e
    rw [e]
  obtain ⟨r1, r2⟩ := C134_part hd hp hw hc hv hg (session_done h1) (session_done h2)
  have k1 := text_Set fl d.render p (some part')
  have k2 := text_Get fl json p
  rw [Option.getD_some, r1] at k1
  rw [r2] at k2
  exact ⟨k1, k2⟩

/-- **C134 for the text** `Set`, `Delete`, `Add` and `Insert` that apply end without an error, on the document and on the part. -/
theorem C134_text_runs {l : List Edit} {d : Doc} {p : List Text} {w : Json} (hd : d.wf) (hp : p ≠ []) (hw : d.get? p = some w) (hc : w.isContainer)
    (hv : Valid w.plain (l.map fun o => (o, none))) (hl : ∀ o ∈ l, o.looks = false) :
    ∃ part part' json, Call fl (go% Get) [.bytes d.render] p (.ok [.bytes part, .nil]) ∧ TextSession fl part (l.map fun o => (o, none)) part' ∧
      TextSession fl d.render ((l.map (Edit.under p)).map fun o => (o, none)) json := by
  obtain ⟨part', json, h1, h2⟩ := C134_runs hd hw hv hl
  have k := text_Get fl d.render p
  have e : w.content = w.render := by cases w <;> first | rfl | cases hc
  rw [get_ok hd hp hw, e] at k
  exact ⟨_, _, _, k, does_text h1, does_text h2⟩

/-- **C135 for the text** After calls inside the value at `p`, `Set` at `p` gives what it gives without them. -/
theorem C135_text_set {d : Doc} {p : List Text} {w : Json} {l : List Edit} {json : Bytes} (hd : d.wf) (hp : p ≠ []) (hw : d.get? p = some w)
    (hi : ∀ o ∈ l, o.inside p) (hv : Valid d.root.plain (l.map fun o => (o, none))) (h : TextSession fl d.render (l.map fun o => (o, none)) json)
    (new : Bytes) (r : R (List Val)) :
    Call fl (go% Set) [.bytes json, .bytes new] p r ↔ Call fl (go% Set) [.bytes d.render, .bytes new] p r := by
  have k1 := text_Set fl json p (some new)
  have k2 := text_Set fl d.render p (some new)
  rw [Option.getD_some] at k1 k2
  rw [C135_set hd hp hw hi hv (session_done h)] at k1
  exact ⟨fun h => h.unique k1 ▸ k2, fun h => h.unique k2 ▸ k1⟩

/-- **C135 for the text** After calls inside the value at `p`, `Delete` at `p` gives what it gives without them. -/
theorem C135_text_delete {d : Doc} {p : List Text} {w : Json} {l : List Edit} {json : Bytes} (hd : d.wf) (hp : p ≠ []) (hw : d.get? p = some w)
    (hi : ∀ o ∈ l, o.inside p) (hv : Valid d.root.plain (l.map fun o => (o, none))) (h : TextSession fl d.render (l.map fun o => (o, none)) json)
    (r : R (List Val)) : Call fl (go% Delete) [.bytes json] p r ↔ Call fl (go% Delete) [.bytes d.render] p r := by
  have k1 := text_Delete fl json p
  have k2 := text_Delete fl d.render p
  rw [C135_delete hd hp hw hi hv (session_done h)] at k1
  exact ⟨fun h => h.unique k1 ▸ k2, fun h => h.unique k2 ▸ k1⟩

/-- A case: two calls on the array of the sample, which is then deleted. -/
def Sample.arrCalls : List Edit := [.add Sample.toArr (.lit (str "7")), .set (Sample.toArr ++ [str "0"]) (.str (str "x"))]

example : ∃ json, TextSession fl Sample.doc.render (Sample.arrCalls.map fun o => (o, none)) json ∧
    ∀ r, Call fl (go% Delete) [.bytes json] Sample.toArr r ↔ Call fl (go% Delete) [.bytes Sample.doc.render] Sample.toArr r := by
  have hv : Valid Sample.doc.root.plain (Sample.arrCalls.map fun o => (o, none)) := by decide +kernel
  have hi : ∀ o ∈ Sample.arrCalls, o.inside Sample.toArr := by
    intro o ho
    simp only [Sample.arrCalls, List.mem_cons, List.not_mem_nil, or_false] at ho
    rcases ho with rfl | rfl <;> decide +kernel
  obtain ⟨_, json, -, h⟩ := C134_runs (l := Sample.arrCalls) (p := []) Sample.doc_wf rfl hv
    (by intro o ho; simp only [Sample.arrCalls, List.mem_cons, List.not_mem_nil, or_false] at ho; rcases ho with rfl | rfl <;> rfl)
  rw [show Edit.under [] = id from funext under_nil, List.map_id] at h
  have hs : (Sample.doc.get? Sample.toArr).isSome := by decide +kernel
  obtain ⟨w, hw⟩ := Option.isSome_iff_exists.1 hs
  exact ⟨json, does_text h, fun r => C135_text_delete Sample.doc_wf (by decide +kernel) hw hi hv (does_text h) r⟩

end Jin.Go
