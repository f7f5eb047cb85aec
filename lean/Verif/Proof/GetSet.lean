import Verif.Proof.Upd
/-!
# Proof.GetSet — `Get` and `Set` at a path that resolves
-/

namespace Jin
open Spec

theorem doc_wf {d : Doc} : d.wf ↔ Ws d.lead ∧ d.root.wf ∧ Ws d.trail := by
  simp [Doc.wf, and_assoc]

theorem doc_seg (d : Doc) : Seg d.render d.lead.length d.root.render := by
  have : Seg d.render 0 (d.lead ++ (d.root.render ++ d.trail)) := seg_self _
  rw [seg_append, seg_append] at this
  simpa using this.2.1

theorem span_content {json : Bytes} {i : Nat} {v : Json} (h : Seg json i v.render)
    (hl : i + v.render.length < json.length) :
    slice json (span i v).1 (span i v).2 = .ok v.content := by
  cases v with
  | str raw =>
    rw [render_str, seg_cons, seg_append] at h
    simp only [render_str, List.length_cons, List.length_append, List.length_nil] at hl
    exact slice_seg h.2.1 rfl (by simp only [span]; omega)
  | lit t => exact slice_seg h rfl (Nat.le_of_lt hl)
  | arr g es => exact slice_seg h rfl (Nat.le_of_lt hl)
  | obj g ms => exact slice_seg h rfl (Nat.le_of_lt hl)

/-- `Get` at a resolving path. -/
theorem get_ok_open {d : Doc} {path : List Text} {w : Json} (hd : d.opens) (hp : path ≠ [])
    (h : d.get? path = some w) : Get d.render path = .ok w.content := by
  obtain ⟨f, hf, rfl⟩ := findAt_of_get h
  obtain ⟨h1, -, -, c, hc, -⟩ := find_seg hp hd.2 (doc_seg d) hf
  unfold Get
  rw [if_neg (by simpa using hp), core_found_open hd hp hf]
  exact span_content h1 (lt_of_getElem? hc)

theorem get_ok {d : Doc} {path : List Text} {w : Json} (hd : d.wf) (hp : path ≠ [])
    (h : d.get? path = some w) : Get d.render path = .ok w.content :=
  get_ok_open (opens_of_wf hd) hp h

/-- The two bytes `quotedAt` looks at. -/
theorem quotedAt_ok {json : Bytes} {i : Nat} {v : Json} (hw : v.wf) (h : Seg json i v.render) (h0 : 0 < i)
    {c : UInt8} (hc : json[i - 1]? = some c) (hp : Precedes c) :
    quotedAt json (span i v).1 (span i v).2 = .ok (v matches .str _) := by
  have hn : ∀ s : Nat, 0 < s → at? json ((s : Int) - 1) = json[s - 1]? := by
    intro s hs
    unfold at?
    rw [if_neg (by omega)]
    congr 1
    omega
  have plain : ∀ e : Nat, quotedAt json i e = .ok false := by
    intro e
    unfold quotedAt idx
    rw [hn i h0, hc]
    simp [precedes_ne hp]
  cases v with
  | str raw =>
    rw [render_str, seg_cons, seg_append, seg_cons] at h
    unfold quotedAt idx
    simp only [span]
    rw [hn (i + 1) (by omega)]
    simp only [Nat.add_sub_cancel, h.1]
    have e : at? json ((i + 1 + raw.length : Nat) : Int) = json[i + 1 + raw.length]? := by
      unfold at?; rw [if_neg (by omega)]; congr 1
    rw [e, h.2.2.1]
    rfl
  | lit t => exact plain _
  | arr g es => exact plain _
  | obj g ms => exact plain _

/-- `replaceValue` on the span of a value replaces the text of the value. -/
theorem replaceValue_ok {json A B new : Bytes} {v : Json} (hw : v.wf) (hj : json = A ++ (v.render ++ B))
    {c : UInt8} (h0 : 0 < A.length) (hc : json[A.length - 1]? = some c) (hp : Precedes c) :
    replaceValue json new (span A.length v).1 (span A.length v).2 = .done (A ++ (new ++ B)) none := by
  have hs : Seg json A.length v.render := by
    rw [hj]; have := seg_self (A ++ (v.render ++ B))
    rw [seg_append, seg_append] at this; simpa using this.2.1
  unfold replaceValue
  rw [quotedAt_ok hw hs h0 hc hp]
  simp only [Mut.bindOut]
  cases v with
  | str raw =>
    simp only [span, if_true]
    rw [replace_split hj (by omega) (by simp [render_str]; omega)]
    rfl
  | lit t =>
    simp only [span, Bool.false_eq_true, if_false]
    rw [replace_split hj rfl (by omega)]; rfl
  | arr g es =>
    simp only [span, Bool.false_eq_true, if_false]
    rw [replace_split hj rfl (by omega)]; rfl
  | obj g ms =>
    simp only [span, Bool.false_eq_true, if_false]
    rw [replace_split hj rfl (by omega)]; rfl

/-- Everything the mutators need to know about a located value. -/
theorem doc_split_open {d : Doc} {path : List Text} {f : Found} (hd : d.opens) (hp : path ≠ [])
    (hf : findAt d.root path = some f) :
    ∃ A B, A.length = d.lead.length + f.pos ∧ d.render = A ++ (f.val.render ++ B) ∧
      (∀ g : Json → Json, (d.upd g path).render = A ++ ((g f.val).render ++ B)) ∧
      f.val.wf ∧ 0 < A.length ∧ (∃ c, d.render[A.length - 1]? = some c ∧ Precedes c) ∧
      (∃ c, d.render[A.length + f.val.render.length]? = some c ∧ Follows c) := by
  obtain ⟨h1, h2, h3, h4⟩ := find_seg hp hd.2 (doc_seg d) hf
  have h5 := find_prev hp hd.2 (doc_seg d) hf
  obtain ⟨A, B, a1, a2, a3⟩ := find_upd path hf
  have e : (d.lead ++ A).length = d.lead.length + f.pos := by simp [a1]
  refine ⟨d.lead ++ A, B ++ d.trail, e, ?_, ?_, h2, by omega, ?_, ?_⟩
  · simp [Doc.render, a2]
  · intro g; simp [Doc.render, Doc.upd, a3]
  · rw [e]; exact h5
  · rw [e]; exact h4

theorem doc_split {d : Doc} {path : List Text} {f : Found} (hd : d.wf) (hp : path ≠ [])
    (hf : findAt d.root path = some f) :
    ∃ A B, A.length = d.lead.length + f.pos ∧ d.render = A ++ (f.val.render ++ B) ∧
      (∀ g : Json → Json, (d.upd g path).render = A ++ ((g f.val).render ++ B)) ∧
      f.val.wf ∧ 0 < A.length ∧ (∃ c, d.render[A.length - 1]? = some c ∧ Precedes c) ∧
      (∃ c, d.render[A.length + f.val.render.length]? = some c ∧ Follows c) :=
  doc_split_open (opens_of_wf hd) hp hf

/-- `replaceValue` where `core` found the value. -/
theorem replaceValue_found_open {d : Doc} {path : List Text} {f : Found} (hd : d.opens) (hp : path ≠ [])
    (hf : findAt d.root path = some f) (new : Bytes) :
    replaceValue d.render new (span (d.lead.length + f.pos) f.val).1 (span (d.lead.length + f.pos) f.val).2 =
      .done (d.set path (.lit new)).render none := by
  obtain ⟨A, B, e, h1, h2, h3, h4, ⟨c, hc, hc'⟩, -⟩ := doc_split_open hd hp hf
  rw [← e, replaceValue_ok h3 h1 h4 hc hc']
  have := h2 (fun _ => .lit new)
  rw [render_lit] at this
  rw [← this]; rfl

theorem replaceValue_found {d : Doc} {path : List Text} {f : Found} (hd : d.wf) (hp : path ≠ [])
    (hf : findAt d.root path = some f) (new : Bytes) :
    replaceValue d.render new (span (d.lead.length + f.pos) f.val).1 (span (d.lead.length + f.pos) f.val).2 =
      .done (d.set path (.lit new)).render none :=
  replaceValue_found_open (opens_of_wf hd) hp hf new

/-- `Set` at a resolving path. -/
theorem set_ok_open {d : Doc} {path : List Text} {w : Json} (hd : d.opens) (hp : path ≠ [])
    (h : d.get? path = some w) (new : Bytes) :
    Set d.render new path = .done (d.set path (.lit new)).render none := by
  obtain ⟨f, hf, rfl⟩ := findAt_of_get h
  unfold Set
  rw [if_neg (by simpa using hp), core_found_open hd hp hf]
  exact replaceValue_found_open hd hp hf new

theorem set_ok {d : Doc} {path : List Text} {w : Json} (hd : d.wf) (hp : path ≠ [])
    (h : d.get? path = some w) (new : Bytes) :
    Set d.render new path = .done (d.set path (.lit new)).render none :=
  set_ok_open (opens_of_wf hd) hp h new

/-- Replacing by a raw text or by a tree with that text is the same. -/
theorem set_render_eq {d : Doc} {path : List Text} {w : Json} (h : d.get? path = some w) {x y : Json}
    (hxy : x.render = y.render) : (d.set path x).render = (d.set path y).render := by
  obtain ⟨f, hf, rfl⟩ := findAt_of_get h
  obtain ⟨A, B, -, -, a3⟩ := find_upd path hf
  simp only [Doc.render, Doc.set, Json.set, a3, hxy]

end Jin
