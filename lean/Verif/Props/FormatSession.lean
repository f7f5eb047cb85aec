import Verif.Props.TextRelative
import Verif.Props.FormatMut
/-!
# Props.FormatSession — C125 for sessions
-/

namespace Jin
open Spec

mutual
theorem plain_strip : ∀ j : Json, j.strip.plain = j.plain
  | .lit _ => rfl
  | .str _ => rfl
  | .arr g es => by rw [Json.strip, Json.plain, Json.plain, plain_stripElems]
  | .obj g ms => by rw [Json.strip, Json.plain, Json.plain, plain_stripMembers]
theorem plain_stripElems : ∀ es : List (Elem Json), plainElems (stripElems es) = plainElems es
  | [] => rfl
  | ⟨l, v, r⟩ :: es => by rw [stripElems, plainElems, plainElems, plain_strip, plain_stripElems]
theorem plain_stripMembers : ∀ ms : List (Member Json), plainMembers (stripMembers ms) = plainMembers ms
  | [] => rfl
  | ⟨l, k, m, l2, v, r⟩ :: ms => by rw [stripMembers, plainMembers, plainMembers, plain_strip, plain_stripMembers]
end

/-- Documents that `Flatten` makes equal have the same value. -/
theorem plain_of_flatten {d e : Doc} (hd : d.wf) (he : e.wf) (h : Flatten d.render = Flatten e.render) : d.root.plain = e.root.plain := by
  rw [C40_flatten d hd, C40_flatten e he] at h
  have := plain_unique (C40_flatten_wf d hd) (C40_flatten_wf e he) h
  rwa [plain_strip, plain_strip] at this

/-- **C125** The same session on two texts that differ in white space only, with the same calls refused, leaves two texts that differ in white space only, and
`Get` of a scalar is the same. -/
theorem C125_sessions {d e : Doc} {l : List (Edit × Option Err)} {a b : Bytes} (hd : d.wf) (he : e.wf) (hf : Flatten d.render = Flatten e.render)
    (ha : Session d.render l a) (hb : Session e.render l b) (hv : Valid d.root.plain l) :
    Flatten a = Flatten b ∧ (∃ d' : Doc, d'.wf ∧ a = d'.render) ∧ (∃ e' : Doc, e'.wf ∧ b = e'.render) ∧
      ∀ t, follow d.root.plain l = some t → ∀ p c, p ≠ [] → t.get? p = some c → (∀ es, c ≠ .arr es) → (∀ ms, c ≠ .obj ms) → Get a p = Get b p := by
  have hp := plain_of_flatten hd he hf
  have hv' := hv
  rw [hp] at hv'
  obtain ⟨⟨d', k1, k2, k3⟩, -⟩ := C127_session hd ha hv
  obtain ⟨⟨e', l1, l2, l3⟩, -⟩ := C127_session he hb hv'
  have r := C127_read hd ha hv k3
  have s := C127_read he hb hv' (hp ▸ k3)
  refine ⟨r.1.trans s.1.symm, ⟨d', k2, k1⟩, ⟨e', l2, l1⟩, ?_⟩
  intro t ht p c hne hc n1 n2
  cases k3.symm.trans ht
  obtain ⟨x, x1, x2⟩ := r.2.1 p c hne hc
  obtain ⟨y, y1, y2⟩ := s.2.1 p c hne hc
  rw [x1, y1]
  cases c with
  | lit t => rw [show x = t from x2, show y = t from y2]
  | str t => rw [show x = t from x2, show y = t from y2]
  | arr es => exact absurd rfl (n1 es)
  | obj ms => exact absurd rfl (n2 ms)

/-- **C125** Sessions of `Set`, `Delete`, `Add` and `Insert` that apply report no error, whatever the white space. -/
theorem C125_session_runs : ∀ {l : List Edit} {d : Doc}, d.wf → Valid d.root.plain (l.map fun o => (o, none)) → (∀ o ∈ l, o.looks = false) →
    ∃ json, Does d.render l json := by
  intro l d hd hv hl
  obtain ⟨-, json, -, h⟩ := C134_runs (p := []) hd rfl hv hl
  rw [show Edit.under [] = id from funext under_nil, List.map_id] at h
  exact ⟨json, h⟩

/-- A case: the sample and its flattened text. -/
example : ∃ a b, Does Sample.doc.render Sample.calls a ∧ Does (Flatten Sample.doc.render) Sample.calls b ∧ Flatten a = Flatten b := by
  have hv : Valid Sample.doc.root.plain (Sample.calls.map fun o => (o, none)) := by decide +kernel
  have hl : ∀ o ∈ Sample.calls, o.looks = false := by
    intro o ho; simp only [Sample.calls, List.mem_cons, List.not_mem_nil, or_false] at ho; rcases ho with rfl | rfl | rfl <;> rfl
  have hw := C40_flatten_wf _ Sample.doc_wf
  have hf := C40_flatten _ Sample.doc_wf
  obtain ⟨a, ha⟩ := C125_session_runs Sample.doc_wf hv hl
  obtain ⟨b, hb⟩ := C125_session_runs hw (l := Sample.calls) (by rw [plain_strip]; exact hv) hl
  refine ⟨a, b, ha, hf ▸ hb, (C125_sessions Sample.doc_wf hw ?_ ha hb hv).1⟩
  rw [← hf, C40_flatten_idempotent _ Sample.doc_wf]

end Jin

namespace Jin.Go
open Spec

variable {fl : FloatLib UInt64}

/-- **C125 for the text** The same session on two texts that `Flatten` makes equal: it makes the results equal. -/
theorem C125_text_sessions {d e : Doc} {l : List (Edit × Option Err)} {a b t u : Bytes} (hd : d.wf) (he : e.wf)
    (h1 : Call1 fl (go% Flatten) [.bytes d.render] (.ok [.bytes t])) (h2 : Call1 fl (go% Flatten) [.bytes e.render] (.ok [.bytes t]))
    (ha : TextSession fl d.render l a) (hb : TextSession fl e.render l b) (hv : Valid d.root.plain l)
    (h3 : Call1 fl (go% Flatten) [.bytes a] (.ok [.bytes u])) : Call1 fl (go% Flatten) [.bytes b] (.ok [.bytes u]) := by
  have key : ∀ {x y : Bytes}, Call1 fl (go% Flatten) [.bytes x] (.ok [.bytes y]) → Flatten x = y := by
    intro x y h
    have := h.unique (text_Flatten fl x)
    simpa using this.symm
  have h := (C125_sessions hd he ((key h1).trans (key h2).symm) (text_session ha) (text_session hb) hv).1
  rw [key h3] at h
  have := text_Flatten fl b
  rw [← h] at this
  exact this

/-- **C125 for the text** Such a session goes through if no call is an `AddKeyValue` or `SetKey`. -/
theorem C125_text_session_runs {l : List Edit} {d : Doc} (hd : d.wf) (hv : Valid d.root.plain (l.map fun o => (o, none))) (hl : ∀ o ∈ l, o.looks = false) :
    ∃ json, TextSession fl d.render (l.map fun o => (o, none)) json := by
  obtain ⟨json, h⟩ := C125_session_runs hd hv hl
  exact ⟨json, does_text h⟩

end Jin.Go
