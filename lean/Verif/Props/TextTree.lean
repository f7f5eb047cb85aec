import Verif.Props.TextSync
/-!
# Property C111: the drawings of the text

`Tree` and `TreeFull` of `Parser`, and `node.createTree` under them, run from their text (property C68).
-/

namespace Jin.Go

open Jin.Spec

section
variable {fl : FloatLib UInt64} {w : WorldP}

/-- `Tree` and `TreeFull` of the text on a parser that stands for a value. -/
theorem draws {h : NHeap} {p : ParserP} {P : Parser} {up : Option Nat} {t : PTree} (hr : Rep h p P up t) :
    Call1 fl (go% Parser.Tree) [.heap h, .ptr p.core, .bytes p.json] (.ok [.heap h, .ptr p.core, .bytes p.json, .bytes P.Tree]) ∧
    Call1 fl (go% Parser.TreeFull) [.heap h, .ptr p.core, .bytes p.json] (.ok [.heap h, .ptr p.core, .bytes p.json, .bytes (P.TreeFull pad6)]) :=
  ⟨text_Parser_Tree fl false hr, text_Parser_Tree fl true hr⟩

end

/-- **C111** After `Parse` of the text on a well formed object or array, `Tree` of the text gives the outline of the document and `TreeFull` the
outline with the labels filled up to six characters and the texts of the values; neither changes the parser. -/
theorem C111_parse (fl : FloatLib UInt64) {w : WorldP} (hw : Left fl w) {d : Doc} (hd : d.wf) (hc : d.root.isContainer) :
    ∃ h c, Call1 fl (go% Parse) [.heap w.heap, .bytes d.render] (.ok [.heap h, .ptr c, .bytes d.render, .nil]) ∧
      Call1 fl (go% Parser.Tree) [.heap h, .ptr c, .bytes d.render] (.ok [.heap h, .ptr c, .bytes d.render, .bytes (outline 0 d.root)]) ∧
      Call1 fl (go% Parser.TreeFull) [.heap h, .ptr c, .bytes d.render] (.ok [.heap h, .ptr c, .bytes d.render,
        .bytes (outlineFull (fun l => List.replicate (6 - runeCount l) 32) 0 d.root)]) := by
  obtain ⟨vs, L, hL, hh⟩ := hw.rel
  have ht := text_Parse fl hh (json := d.render)
  have hs := parse_sim d.render w.heap
  obtain ⟨P, hP, -⟩ := C53_exact hd hc []
  rw [hP] at hs
  cases hx : ParseP d.render w.heap with
  | panic => rw [hx] at hs; exact hs.elim
  | err e => rw [hx] at hs; exact hs.elim
  | ok x =>
    obtain ⟨p, h'⟩ := x
    simp only [hx] at ht hs
    obtain ⟨⟨up, t, hr, -⟩, -, -⟩ := hs
    have hj : p.json = d.render := by
      rw [hr.json]
      have hP := hP
      rw [Parse_ok hd hc] at hP
      cases hP
      rfl
    have hdr := draws (fl := fl) hr
    rw [C68_parse_exact hd hc hP, C68_full_exact _ hd hc hP, hj] at hdr
    rw [hj] at ht
    exact ⟨h', p.core, ht.1, hdr.1, hdr.2⟩

/-- **C111 (partial)** Of a parser that a program holds and that `Parse` and calls of `PCall.ok` have made, `Tree` of the text gives the outline of
the document that its text now is.  Missing: documents with an array of one scalar, whose element is not listed (`C68_fails`), and the
other calls. -/
theorem C111_tree_partial (fl : FloatLib UInt64) (calls : List TCall) (hc : ∀ c ∈ calls, ∀ k pad b, c ≠ .base (.tree k pad b)) {answers : List TAns} {w : WorldP}
    (h : TRun fl ⟨[], []⟩ calls answers w) {k : Nat} {p : ParserP} {P : Parser} (hp : w.parsers[k]? = some p) (hP : (tVals fl [] calls).2[k]? = some P)
    {d : Doc} (hd : Reached P d) (hl : fewLone d.root) :
    p.json = d.render ∧ Call1 fl (go% Parser.Tree) [.heap w.heap, .ptr p.core, .bytes p.json] (.ok [.heap w.heap, .ptr p.core, .bytes p.json, .bytes (outline 0 d.root)]) := by
  obtain ⟨w', L, h1, h2, hL⟩ := t_run (fl := fl) WRel.empty (fun _ _ h => by simp at h) calls hc
  obtain ⟨-, rfl⟩ := h.unique h1
  rcases hL.slot k with ⟨-, k2, -⟩ | ⟨s, k1, k2, k3⟩
  · rw [k2] at hp; cases hp
  rw [k2] at hp
  cases hp
  have hs := hL.rep k s k1
  have he : s.P = P := by
    have := k3.symm.trans hP
    cases this
    rfl
  have hdr := (draws (fl := fl) hs).1
  rw [he, C68_tree_partial hd hl] at hdr
  exact ⟨by rw [hs.json, he]; exact (session_sync hd).json, hdr⟩

/-- A program whose parser meets the conditions of `C111_tree_partial`: the sample is parsed, and a value in it set; `C111_parse` on the sample. -/
example (fl : FloatLib UInt64) : (∃ P d, (tVals fl [] [.base (.parse Sample.doc.render), .typed 0 (.setInt 7) Sample.toTrue]).2[0]? = some P ∧ Reached P d ∧ fewLone d.root ∧
    ∃ w p, TRun fl ⟨[], []⟩ [.base (.parse Sample.doc.render), .typed 0 (.setInt 7) Sample.toTrue]
      (tVals fl [] [.base (.parse Sample.doc.render), .typed 0 (.setInt 7) Sample.toTrue]).1 w ∧ w.parsers[0]? = some p) ∧
    Left fl ⟨[], []⟩ ∧ Sample.doc.wf ∧ Sample.doc.root.isContainer ∧
    outlineFull (fun l => List.replicate (6 - runeCount l) 32) 0 (.obj [] [⟨[], str "é", [], [32], .lit (str "1"), []⟩]) = str "─ é      :  1\n" := by
  refine ⟨?_, ⟨[], [], by simp, .nil⟩, Sample.doc_wf, rfl, by decide +kernel⟩
  obtain ⟨p1, h1, -⟩ := parse_sync Sample.doc_wf rfl
  have r1 := Reached.parse Sample.doc_wf rfl h1
  have o1 : PCall.ok Sample.doc (.set Sample.toTrue (.lit (str "7"))) :=
    ⟨by decide +kernel, by decide +kernel, rfl, .lit bTrue, ⟨Sample.get_true, by decide +kernel⟩, rfl⟩
  obtain ⟨p2, d2, h2, g2, r2⟩ := C64_call_partial r1 o1
  have h2 : p1.SetInt 7 Sample.toTrue = .done p2 none := by
    have e7 : itoa 7 = str "7" := by decide +kernel
    rw [Parser.SetInt, e7]
    exact h2
  have e1 : tVals fl [] [.base (.parse Sample.doc.render), .typed 0 (.setInt 7) Sample.toTrue] = ([.base (.parsed none), .base (.did p2.json none)], [p2]) := by
    simp [tVals, tVal, valStep, h1, valMut, TMut.val, h2, TAns.isPanic, PAns.isPanic]
  obtain ⟨w, h⟩ := (C108_sessions fl [.base (.parse Sample.doc.render), .typed 0 (.setInt 7) Sample.toTrue] (by simp) _).2 rfl
  obtain ⟨hl, -⟩ := C108_reads fl _ (by simp) _ w h
  rw [e1] at hl h ⊢
  have g2 : d2 = Sample.doc.set Sample.toTrue (.lit (str "7")) := g2
  exact ⟨p2, d2, rfl, r2, by rw [g2]; decide +kernel, w, w.parsers[0]'(by rw [hl]; exact Nat.one_pos), h, by simp⟩

/-- The outputs of `ExampleParser_Tree` and `ExampleParser_TreeFull`, examples_test.go:328-359. -/
example : (Parse (str "{\"user\":\"eco\",\"languages\":[\"go\",\"java\",\"python\",\"C\",\"Cpp\"],\"following\":{\"social\":\"dev.to\",\"code\":\"github\"}}")).map
      (fun P => (P.Tree, P.TreeFull pad6)) =
    .ok (str "─ user\n─ languages\n\t└  0\n\t└  1\n\t└  2\n\t└  3\n\t└  4\n─ following\n\t└  social\n\t└  code\n",
      str "─ user   : \"eco\"\n─ languages : [\"go\",\"java\",\"python\",\"C\",\"Cpp\"]\n\t└  0      : \"go\"\n\t└  1      : \"java\"\n\t└  2      : \"python\"\n\t└  3      : \"C\"\n\t└  4      : \"Cpp\"\n─ following : {\"social\":\"dev.to\",\"code\":\"github\"}\n\t└  social : \"dev.to\"\n\t└  code   : \"github\"\n") := by
  decide +kernel

end Jin.Go
