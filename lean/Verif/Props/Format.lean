import Verif.Props.Get
import Verif.Proof.Print
/-!
# Props.Format — C40, C41
-/

namespace Jin
open Spec

/-- **C40** `Flatten` gives the same document without the whitespace between tokens. -/
theorem C40_flatten (d : Doc) (hd : d.wf) : Flatten d.render = (⟨[], d.root.strip, []⟩ : Doc).render := by
  rw [flatten_ok hd, Doc.render, List.nil_append, List.append_nil]

/-- The result is again a well-formed text. -/
theorem C40_flatten_wf (d : Doc) (hd : d.wf) : (⟨[], d.root.strip, []⟩ : Doc).wf :=
  doc_wf.2 ⟨rfl, strip_wf _ (doc_wf.1 hd).2.1, rfl⟩

/-- **C40** Flattening twice is flattening once. -/
theorem C40_flatten_idempotent (d : Doc) (hd : d.wf) : Flatten (Flatten d.render) = Flatten d.render := by
  rw [C40_flatten d hd, C40_flatten _ (C40_flatten_wf d hd)]
  simp only [strip_strip]

/-- **C40** `Get` of a path to a scalar is unchanged by `Flatten`. -/
theorem C40_flatten_get (d : Doc) (path : List Text) (w : Json) (hd : d.wf) (hp : path ≠ [])
    (h : d.get? path = some w) (hw : w.isContainer = false) :
    Get (Flatten d.render) path = Get d.render path := by
  rw [C40_flatten d hd]
  exact (C02_get_format_insensitive d _ path w hd (C40_flatten_wf d hd) (strip_strip _).symm hp h hw).symm

example : Flatten Sample.doc.render =
    str "{\"a\":1,\"b\\\"]\":[10,\"x]\\\\\",{\"k\":null},[]],\"a\":2,\"o\":{\"p\":{\"q\":true},\"r\":-1.5e3}}" := by
  rw [C40_flatten _ Sample.doc_wf]; decide +kernel
example : Get (Flatten Sample.doc.render) Sample.toStr = .ok (str "x]\\\\") := by
  rw [C40_flatten_get _ _ _ Sample.doc_wf (by decide) Sample.get_str rfl]
  exact C01_get_exact _ _ _ Sample.doc_wf (by decide) Sample.get_str

/-- Full statement of C41. -/
def C41_statement : Prop := ∀ d : Doc, d.wf → d.root.isContainer →
  ∃ t, Indent d.render = .ok t ∧ Flatten t = Flatten d.render ∧
    ∀ path w, path ≠ [] → d.get? path = some w → w.isContainer = false → Get t path = Get d.render path

/-- **C41 (partial)** When no string or key ends with a backslash and the root is not a
string, `Indent` writes the document with one element or member per line.  Missing:
strings ending with an escaped backslash, for which see `C41_fails`. -/
theorem C41_indent_partial (d : Doc) (hd : d.wf) (ha : d.root.allStr noTrailBs) (hr : ∀ raw, d.root ≠ .str raw) :
    Indent d.render = .ok (⟨[], d.root.indent 0, []⟩ : Doc).render := by
  rw [indent_ok hd ha hr, Doc.render, List.nil_append, List.append_nil]

/-- The indented document is well formed and has the same tokens. -/
theorem C41_indent_tokens (d : Doc) (hd : d.wf) :
    (⟨[], d.root.indent 0, []⟩ : Doc).wf ∧ (d.root.indent 0).strip = d.root.strip :=
  ⟨doc_wf.2 ⟨rfl, indent_wf 0 _ (doc_wf.1 hd).2.1, rfl⟩, indent_strip 0 _⟩

/-- **C41 (partial)** With the same hypotheses: no panic, the flattened text is unchanged
and so is `Get` of every path to a scalar. -/
theorem C41_partial (d : Doc) (hd : d.wf) (ha : d.root.allStr noTrailBs) (hr : ∀ raw, d.root ≠ .str raw) :
    ∃ t, Indent d.render = .ok t ∧ Flatten t = Flatten d.render ∧
      ∀ path w, path ≠ [] → d.get? path = some w → w.isContainer = false → Get t path = Get d.render path := by
  obtain ⟨h1, h2⟩ := C41_indent_tokens d hd
  refine ⟨_, C41_indent_partial d hd ha hr, ?_, ?_⟩
  · rw [C40_flatten d hd, C40_flatten _ h1]
    simp only [h2]
  · intro path w hp h hw
    exact (C02_get_format_insensitive d _ path w hd h1 h2.symm hp h hw).symm

namespace Sample

/-- `{"a\"b" :[ ],"c":[1,{"d":"x y"}]}` -/
def quoted : Doc where
  lead := []
  root := .obj [] [⟨[], s "a\\\"b", s " ", [], .arr (s " ") [], []⟩,
    mem (s "c") (.arr [] [el (.lit (s "1")), el (.obj [] [mem (s "d") (.str (s "x y"))])])]
  trail := []

/-- `["\\","x y"]`, first string an escaped backslash. -/
def bs : Doc := ⟨[], .arr [] [el (.str (s "\\\\")), el (.str (s "x y"))], []⟩

/-- `["\\","}}"]` -/
def bs2 : Doc := ⟨[], .arr [] [el (.str (s "\\\\")), el (.str (s "}}"))], []⟩

end Sample

example : Sample.quoted.wf ∧ Sample.quoted.root.allStr noTrailBs ∧ (∀ raw, Sample.quoted.root ≠ .str raw) ∧
    Indent Sample.quoted.render =
      .ok (str "{\n\t\"a\\\"b\": [\n\t\t\n\t],\n\t\"c\": [\n\t\t1,\n\t\t{\n\t\t\t\"d\": \"x y\"\n\t\t}\n\t]\n}") := by
  refine ⟨by decide +kernel, by decide +kernel, by simp [Sample.quoted], ?_⟩
  rw [C41_indent_partial _ (by decide +kernel) (by decide +kernel) (by simp [Sample.quoted])]
  decide +kernel

/-- After a string ending with an escaped backslash `Indent` takes strings for text outside
strings: here it drops the space of `"x y"`. -/
theorem C41_bs_drops_space : Indent Sample.bs.render = .ok (str "[\n\t\"\\\\\",\"xy\"]") := by decide +kernel

/-- And here it panics on a well-formed array. -/
theorem C41_bs_panics : Indent Sample.bs2.render = .panic := by decide +kernel

/-- Every root string makes `Indent` panic: it looks at the byte before the first quote. -/
theorem C41_root_string_panics (d : Doc) (raw : Text) (hd : d.wf) (hr : d.root = .str raw) : Indent d.render = .panic := by
  unfold Indent
  simp only [flatten_ok hd, hr, Json.strip, render_str]
  rw [forUp_ret (r := ()) (by simp) (by simp [indBody, idx, at?])]

theorem C41_fails : ¬ C41_statement := by
  intro h
  obtain ⟨t, ht, -⟩ := h Sample.bs2 (by decide +kernel) (by decide +kernel)
  rw [C41_bs_panics] at ht
  cases ht

end Jin
