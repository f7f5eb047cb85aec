import Verif.Props.Agree
import Verif.Props.TextRead
import Verif.Go.Scheme
/-!
# Property C132 for the text: the readers of a container agree
-/

namespace Jin.Go
open Spec

variable {fl : FloatLib UInt64} {d : Doc} {p : List Text} {g : Text}

theorem nilStrs_of {l : List Bytes} (h : l ≠ []) : nilStrs l = .strs l := by cases l <;> simp_all [nilStrs]

/-- **C132 for the text** Objects. -/
theorem C132_text_object_partial {ms : List (Member Json)} (hd : d.wf) (h : d.get? p = some (.obj g ms)) (hm : ms ≠ [])
    (hn : (ms.map Member.key).Nodup) (hl : ∀ m ∈ ms, m.loose = false) :
    ∃ ks vs, ks.length = ms.length ∧ vs.length = ms.length ∧ Call fl (go% GetKeys) [.bytes d.render] p (.ok [.strs ks, .nil]) ∧
      Call fl (go% GetValues) [.bytes d.render] p (.ok [.strs vs, .nil]) ∧
      Call fl (go% GetKeysValues) [.bytes d.render] p (.ok [.strs ks, .strs vs, .nil]) ∧
      Call fl (go% GetAll) [.bytes d.render, .strs ks] p (.ok [.strs vs, .nil]) ∧
      (∃ m : GoMap, Call fl (go% GetAllMap) [.bytes d.render, .strs ks] p (.ok [.map m, .nil]) ∧ ∀ i : Nat, ∀ k, ks[i]? = some k → m.get? k = vs[i]?) ∧
      CallCb fl (cb2 fun (u : List (Bytes × Bytes)) k v => .ret (u ++ [(k, v)]) true none) (go% IterateKeyValue)
        ([.bytes d.render, .nil] ++ p.map .bytes) [] (.ok (ks.zip vs, [.nil])) ∧
      Call fl (go% Length) [.bytes d.render] p (.ok [.int ks.length, .nil]) := by
  obtain ⟨ks, vs, h1, h2, h3, h3', h4, h5, ⟨m, h6, h7⟩, h8, h9⟩ := C132_object_partial hd h hm hn hl
  have hks : ks ≠ [] := by intro e; rw [e] at h3; exact hm (List.eq_nil_of_length_eq_zero h3.symm)
  have hvs : vs ≠ [] := by intro e; rw [e] at h3'; exact hm (List.eq_nil_of_length_eq_zero h3'.symm)
  have t1 := text_GetKeys fl d.render p
  have t2 := text_GetValues fl d.render p
  have t3 := text_GetKeysValues fl d.render p
  have t4 := text_GetAll fl d.render p ks
  have t5 := text_GetAllMap (fl := fl) d.render p ks
  have t6 := text_IterateKeyValue (fl := fl) d.render p (fun (u : List (Bytes × Bytes)) k v => .ret (u ++ [(k, v)]) true none) []
  have t7 := text_Length fl d.render p
  rw [h1] at t1; rw [h2] at t2; rw [h4] at t3; rw [h5] at t4; rw [h6] at t5; rw [h8] at t6; rw [h9] at t7
  simp only [oneVal, pairVals, nilStrs_of hks, nilStrs_of hvs, iterVal] at t1 t2 t3 t4 t5 t6 t7
  exact ⟨ks, vs, h3, h3', t1, t2, t3, t4, ⟨m, t5, h7⟩, t6, t7⟩

/-- **C132 for the text** Arrays. -/
theorem C132_text_array_partial {es : List (Elem Json)} (hd : d.wf) (h : d.get? p = some (.arr g es)) (he : es ≠ [])
    (hp : p = [] → d.lead = [] ∧ d.trail = [] ∧ (Json.arr g es).pinch = false) (hs : ∀ e ∈ es, e.snug) :
    ∃ vs, vs.length = es.length ∧ CallCb fl (cb1 fun (u : List Bytes) v => .ret (u ++ [v]) true none) (go% IterateArray) ([.bytes d.render, .nil] ++ p.map .bytes) [] (.ok (vs, [.nil])) ∧
      (∀ (i : Nat) v, (i : Int) ≤ 9223372036854775807 → vs[i]? = some v → Call fl (go% Get) [.bytes d.render] (p ++ [itoa i]) (.ok [.bytes v, .nil])) ∧
      Call fl (go% GetStringArray) [.bytes d.render] p (.ok [.strs vs, .nil]) ∧ Call fl (go% Length) [.bytes d.render] p (.ok [.int vs.length, .nil]) := by
  obtain ⟨vs, h0, h1, h2, h3, h4⟩ := C132_array_partial hd h he hp hs
  have t1 := text_IterateArray (fl := fl) d.render p (fun (u : List Bytes) v => .ret (u ++ [v]) true none) []
  have t3 := text_GetStringArray fl d.render p
  have t4 := text_Length fl d.render p
  rw [h1] at t1; rw [h3] at t3; rw [h4] at t4
  refine ⟨vs, h0, t1, fun i v hi hv => ?_, t3, t4⟩
  have := text_Get fl d.render (p ++ [itoa i])
  rw [h2 i v hi hv] at this
  exact this

/-- Cases of the hypotheses. -/
example : ∃ ks vs, 2 ≤ ks.length ∧ Call fl (go% GetKeys) [.bytes Sample.doc.render] Sample.toObj (.ok [.strs ks, .nil]) ∧
    Call fl (go% GetAll) [.bytes Sample.doc.render, .strs ks] Sample.toObj (.ok [.strs vs, .nil]) := by
  obtain ⟨ks, vs, h0, -, h1, -, -, h2, -⟩ :=
    C132_text_object_partial (fl := fl) Sample.doc_wf Sample.get_obj (by decide +kernel) (by decide +kernel) (by decide +kernel)
  exact ⟨ks, vs, by rw [h0]; decide +kernel, h1, h2⟩

example : ∃ vs, Call fl (go% GetStringArray) [.bytes Sample.doc.render] Sample.toArr (.ok [.strs vs, .nil]) ∧
    Call fl (go% Length) [.bytes Sample.doc.render] Sample.toArr (.ok [.int vs.length, .nil]) := by
  obtain ⟨vs, -, -, -, h1, h2⟩ :=
    C132_text_array_partial (fl := fl) Sample.doc_wf Sample.get_arr (by decide +kernel) (by intro h; revert h; decide +kernel) (by decide +kernel)
  exact ⟨vs, h1, h2⟩

end Jin.Go
