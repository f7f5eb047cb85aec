import Verif.Props.Sample
import Verif.Proof.Fresh
/-!
# Props.Miss — C03, C04: paths that lead nowhere
-/

namespace Jin
open Spec

/-- **C03 (partial)** A key that the object at path `p` does not have gives a KeyNotFound
error that names it, with any further path appended.  Missing: objects in surroundings
that violate `Doc.clear`; there the search runs on into text behind the object and the
property is false (`C03_fails`, `C03_fails_empty`, `C03_fails_root`). -/
theorem C03_missing_key_partial (d : Doc) (p : List Text) (q : Text) (qs : List Text) (g : Text) (ms : List (Member Json))
    (hd : d.wf) (h : d.get? p = some (.obj g ms)) (hq : ∀ m ∈ ms, m.key ≠ q) (hok : d.clear p q) :
    Get d.render (p ++ q :: qs) = .err (.keyNotFound q) := by
  have hi : memberIdx ms q = none := by
    unfold memberIdx
    rw [List.findIdx?_eq_none_iff]
    intro m hm
    simpa using hq m hm
  unfold Get
  rw [if_neg (by simp), core_clear hd h hi hok]
  rfl

example : Sample.doc.wf ∧ Sample.doc.root.missOk Sample.toObj ∧ Sample.doc.root.missOk [] ∧
    (∃ g ms, Sample.doc.get? Sample.toObj = some (.obj g ms) ∧ ms.length = 2 ∧ ∀ m ∈ ms, m.key ≠ str "q") ∧
    Get Sample.doc.render [str "o", str "q"] = .err (.keyNotFound (str "q")) := by
  have hg : ∃ g ms, Sample.doc.get? Sample.toObj = some (.obj g ms) ∧ ms.length = 2 ∧ ∀ m ∈ ms, m.key ≠ str "q" :=
    ⟨[], [⟨str " ", str "p", [], [], .obj [] [⟨[], str "q", [], [], .lit (str "true"), str " "⟩], []⟩,
        ⟨str " ", str "r", [], [], .lit (str "-1.5e3"), []⟩], by decide +kernel, by decide +kernel, by decide +kernel⟩
  refine ⟨Sample.doc_wf, by decide +kernel, by decide +kernel, hg, ?_⟩
  obtain ⟨g, ms, h1, -, h3⟩ := hg
  exact C03_missing_key_partial _ _ _ [] g ms Sample.doc_wf h1 h3 (.inl (by decide +kernel))

/-- `{"a":{"x":1},"b":{"y":2,"z":3}}`: what follows `a` is not narrow, but the key `w` does not
occur in it. -/
def Sample.wide : Doc := ⟨[], .obj [] [Sample.mem (str "a") (.obj [] [Sample.mem (str "x") (.lit (str "1"))]),
    Sample.mem (str "b") (.obj [] [Sample.mem (str "y") (.lit (str "2")), Sample.mem (str "z") (.lit (str "3"))])], []⟩

example : Sample.wide.root.missOk [str "a"] = false ∧ Sample.wide.fresh [str "a"] (str "w") ∧
    Get Sample.wide.render [str "a", str "w"] = .err (.keyNotFound (str "w")) := by
  have h : Sample.wide.fresh [str "a"] (str "w") :=
    fresh_of (n := 5) (w := .obj [] [Sample.mem (str "x") (.lit (str "1"))]) (by decide +kernel) (by decide +kernel) (by decide +kernel)
      (by decide +kernel) (by decide +kernel)
  exact ⟨by decide +kernel, h, C03_missing_key_partial Sample.wide [str "a"] (str "w") [] [] [Sample.mem (str "x") (.lit (str "1"))]
    (by decide +kernel) (by decide +kernel) (by decide +kernel) (.inr h)⟩

/-- **C03 is false in general**: the key is looked up in a later sibling.
`{"a":{"x":1},"b":{"y":2,"z":3}}`: `Get("a","z")` finds `3`. -/
theorem C03_fails : ¬ ∀ (d : Doc) (p : List Text) (q : Text) (g : Text) (ms : List (Member Json)), d.wf →
    d.get? p = some (.obj g ms) → (∀ m ∈ ms, m.key ≠ q) → ∃ k, Get d.render (p ++ [q]) = .err (.keyNotFound k) := by
  intro h
  have := h ⟨[], .obj [] [Sample.mem (str "a") (.obj [] [Sample.mem (str "x") (.lit (str "1"))]),
    Sample.mem (str "b") (.obj [] [Sample.mem (str "y") (.lit (str "2")), Sample.mem (str "z") (.lit (str "3"))])], []⟩
    [str "a"] (str "z") [] [Sample.mem (str "x") (.lit (str "1"))] (by decide +kernel) (by decide +kernel) (by decide +kernel)
  obtain ⟨k, hk⟩ := this
  have e : Get (str "{\"a\":{\"x\":1},\"b\":{\"y\":2,\"z\":3}}") [str "a", str "z"] = .ok (str "3") := by decide +kernel
  have e2 : str "{\"a\":{\"x\":1},\"b\":{\"y\":2,\"z\":3}}" = Doc.render ⟨[], .obj [] [Sample.mem (str "a") (.obj [] [Sample.mem (str "x") (.lit (str "1"))]),
    Sample.mem (str "b") (.obj [] [Sample.mem (str "y") (.lit (str "2")), Sample.mem (str "z") (.lit (str "3"))])], []⟩ := by decide +kernel
  rw [← e2] at hk
  rw [show [str "a"] ++ [str "z"] = [str "a", str "z"] from rfl, e] at hk
  cases hk

/-- An empty object followed by an object that has the key. -/
theorem C03_fails_empty : Get (str "{\"a\":{},\"b\":{\"x\":2}}") [str "a", str "x"] = .ok (str "2") := by decide +kernel

/-- A bracket in a string of the last value of the root: `Get(",")` on
`{"a":{"b":"}",":":2}}` calls the document malformed. -/
theorem C03_fails_root : Get (str "{\"a\":{\"b\":\"}\",\":\":2}}") [str ","] = .err (.badJSON 16) := by decide +kernel

/-- **C04** At an existing array: a path entry that is no integer gives IndexExpected; an
integer that is negative or not below the length gives IndexOutOfRange, except that index
0 of an empty array as the last path entry gives EmptyArray.  Nothing is ever returned. -/
theorem C04_index_errors (d : Doc) (p : List Text) (q : Text) (qs : List Text) (g : Text) (es : List (Elem Json))
    (hd : d.wf) (h : d.get? p = some (.arr g es)) :
    (readInt q = none → Get d.render (p ++ q :: qs) = .err .indexExpected) ∧
    (∀ n, readInt q = some n → n < 0 ∨ (es.length : Int) ≤ n →
      Get d.render (p ++ q :: qs) = .err (if n = 0 ∧ qs = [] then .emptyArray else .indexOutOfRange)) := by
  obtain ⟨f, hf, hv, hseg, hwf⟩ := find_any hd h
  unfold Get
  rw [if_neg (by simp)]
  refine ⟨fun hq => ?_, fun n hq hn => ?_⟩
  · rw [core_index_expected hd hf hv hq]; rfl
  · rw [core_index_range hd hf hv (hv ▸ hseg) (hv ▸ hwf) hq hn]; rfl

example : ∃ g es, Sample.doc.get? Sample.toArr = some (.arr g es) ∧ es.length = 4 ∧
    Get Sample.doc.render (Sample.toArr ++ [str "4"]) = .err .indexOutOfRange ∧
    Get Sample.doc.render (Sample.toArr ++ [str "-1"]) = .err .indexOutOfRange ∧
    Get Sample.doc.render (Sample.toArr ++ [str "x"]) = .err .indexExpected ∧
    Get Sample.doc.render (Sample.toArr ++ [str "3", str "0"]) = .err .emptyArray := by
  have hg : ∃ g es, Sample.doc.get? Sample.toArr = some (.arr g es) ∧ es.length = 4 :=
    ⟨[], [⟨str " ", .lit (str "10"), str " "⟩, ⟨[], .str (str "x]\\\\"), str " "⟩,
        ⟨str " ", .obj [] [Sample.mem (str "k") (.lit (str "null"))], []⟩, ⟨str " ", .arr [] [], str " "⟩],
      by decide +kernel, by decide +kernel⟩
  obtain ⟨g, es, h1, h2⟩ := hg
  refine ⟨g, es, h1, h2, ?_, ?_, ?_, ?_⟩
  · exact (C04_index_errors _ _ _ [] g es Sample.doc_wf h1).2 4 (by decide +kernel) (by omega)
  · exact (C04_index_errors _ _ (str "-1") [] g es Sample.doc_wf h1).2 (-1) (by decide +kernel) (by omega)
  · exact (C04_index_errors _ _ _ [] g es Sample.doc_wf h1).1 (by decide +kernel)
  · exact (C04_index_errors Sample.doc (Sample.toArr ++ [str "3"]) (str "0") [] [] [] Sample.doc_wf (by decide +kernel)).2 0
      (by decide +kernel) (by simp)

end Jin
