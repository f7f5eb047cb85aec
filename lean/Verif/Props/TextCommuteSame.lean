import Verif.Props.CommuteSame
import Verif.Props.TextCommute
/-!
# Property C137 for the text
-/

namespace Jin.Go
open Spec

variable {fl : FloatLib UInt64}

/-- **C137 for the text** Each call may be the function, the method of `JO` or a typed function that writes the same value. -/
theorem C137_text_add {d : Doc} {p : List Text} {g : Text} {es : List (Elem Json)} {r : Text} {v : Json} {o : Edit} {j1 j2 a b : Bytes} (hd : d.wf)
    (h : d.get? p = some (.arr g es)) (hv : v.wf) (ho : o.args) (ha : (o.under (p ++ [r])).applies d.root.plain)
    (h1 : Step fl (.add p v) d.render (.ok [.bytes j1, .nil])) (h2 : Step fl (o.under (p ++ [r])) j1 (.ok [.bytes a, .nil]))
    (h3 : Step fl (o.under (p ++ [r])) d.render (.ok [.bytes j2, .nil])) (h4 : Step fl (.add p v) j2 (.ok [.bytes b, .nil])) : a = b :=
  C137_add hd h hv ho ha (step_done h1) (step_done h2) (step_done h3) (step_done h4)

/-- **C137 for the text** `AddKeyValue`. -/
theorem C137_text_addKeyValue {d : Doc} {p : List Text} {g k : Text} {ms : List (Member Json)} {r : Text} {v : Json} {o : Edit} {j1 j2 a b : Bytes}
    (hd : d.wf) (h : d.get? p = some (.obj g ms)) (hk : strOk k) (hv : v.wf) (ho : o.args) (ha : (o.under (p ++ [r])).applies d.root.plain)
    (h1 : Step fl (.addKeyValue p k v) d.render (.ok [.bytes j1, .nil])) (h2 : Step fl (o.under (p ++ [r])) j1 (.ok [.bytes a, .nil]))
    (h3 : Step fl (o.under (p ++ [r])) d.render (.ok [.bytes j2, .nil])) (h4 : Step fl (.addKeyValue p k v) j2 (.ok [.bytes b, .nil])) : a = b :=
  C137_addKeyValue hd h hk hv ho ha (step_done h1) (step_done h2) (step_done h3) (step_done h4)

/-- **C137 for the text** `Delete` of a member. -/
theorem C137_text_delete_member {d : Doc} {p : List Text} {q r : Text} {g : Text} {ms : List (Member Json)} {x : Json} {o : Edit} {j1 j2 a b : Bytes}
    (hd : d.wf) (h : d.get? p = some (.obj g ms)) (hq : d.get? (p ++ [q]) = some x) (hne : r ≠ q)
    (ho : o.args) (ha : (o.under (p ++ [r])).applies d.root.plain)
    (h1 : Step fl (.delete p q) d.render (.ok [.bytes j1, .nil])) (h2 : Step fl (o.under (p ++ [r])) j1 (.ok [.bytes a, .nil]))
    (h3 : Step fl (o.under (p ++ [r])) d.render (.ok [.bytes j2, .nil])) (h4 : Step fl (.delete p q) j2 (.ok [.bytes b, .nil])) : a = b :=
  C137_delete_member hd h hq hne ho ha (step_done h1) (step_done h2) (step_done h3) (step_done h4)

/-- **C137 for the text** `Delete` of an element. -/
theorem C137_text_delete_element {d : Doc} {p : List Text} {q r r' : Text} {g : Text} {es : List (Elem Json)} {n m : Nat} {o : Edit} {j1 j2 a b : Bytes}
    (hd : d.wf) (h : d.get? p = some (.arr g es)) (hq : readIndex q = some n) (hn : n < es.length) (hr : readIndex r = some m) (hmn : m ≠ n)
    (hr' : readIndex r' = some (if m < n then m else m - 1)) (ho : o.args) (ha : (o.under (p ++ [r])).applies d.root.plain)
    (h1 : Step fl (.delete p q) d.render (.ok [.bytes j1, .nil])) (h2 : Step fl (o.under (p ++ [r'])) j1 (.ok [.bytes a, .nil]))
    (h3 : Step fl (o.under (p ++ [r])) d.render (.ok [.bytes j2, .nil])) (h4 : Step fl (.delete p q) j2 (.ok [.bytes b, .nil])) : a = b :=
  C137_delete_element hd h hq hn hr hmn hr' ho ha (step_done h1) (step_done h2) (step_done h3) (step_done h4)

/-- **C137 for the text** `Insert`. -/
theorem C137_text_insert {d : Doc} {p : List Text} {r r' : Text} {g : Text} {es : List (Elem Json)} {v : Json} {n m : Nat} {o : Edit} {j1 j2 a b : Bytes}
    (hd : d.wf) (h : d.get? p = some (.arr g es)) (hn : n + 1 < es.length ∨ n = 0 ∧ es ≠ []) (hb : (n : Int) ≤ 9223372036854775807) (hv : v.wf)
    (hr : readIndex r = some m) (hr' : readIndex r' = some (if m < n then m else m + 1)) (ho : o.args) (ha : (o.under (p ++ [r])).applies d.root.plain)
    (h1 : Step fl (.insert p n v) d.render (.ok [.bytes j1, .nil])) (h2 : Step fl (o.under (p ++ [r'])) j1 (.ok [.bytes a, .nil]))
    (h3 : Step fl (o.under (p ++ [r])) d.render (.ok [.bytes j2, .nil])) (h4 : Step fl (.insert p n v) j2 (.ok [.bytes b, .nil])) : a = b :=
  C137_insert hd h hn hb hv hr hr' ho ha (step_done h1) (step_done h2) (step_done h3) (step_done h4)

/-- **C137 for the text** `SetKey`. -/
theorem C137_text_setKey {d : Doc} {p : List Text} {q new r g : Text} {ms : List (Member Json)} {x : Json} {o : Edit} {j1 j2 a b : Bytes}
    (hd : d.wf) (h : d.get? p = some (.obj g ms)) (hq : d.get? (p ++ [q]) = some x) (hns : strOk new) (ho : o.args)
    (ha : (o.under (p ++ [r])).applies d.root.plain)
    (h1 : Step fl (.setKey p q new) d.render (.ok [.bytes j1, .nil])) (h2 : Step fl (o.under (p ++ [if r = q then new else r])) j1 (.ok [.bytes a, .nil]))
    (h3 : Step fl (o.under (p ++ [r])) d.render (.ok [.bytes j2, .nil])) (h4 : Step fl (.setKey p q new) j2 (.ok [.bytes b, .nil])) : a = b :=
  C137_setKey hd h hq hns ho ha (step_done h1) (step_done h2) (step_done h3) (step_done h4)

theorem run_call {o : Edit} {json t : Bytes} (h : o.run json = .done t none) : callOf fl o json (.ok [.bytes t, .nil]) := by
  have := callOf_run (fl := fl) o json
  rw [h] at this
  exact this

/-- **C137 for the text** All four calls end without an error if the mutation is a `Set`, `Delete`, `Add` or `Insert`. -/
theorem C137_text_runs {d : Doc} {p : List Text} {q r r' : Text} {g : Text} {es : List (Elem Json)} {n m : Nat} {o : Edit}
    (hd : d.wf) (h : d.get? p = some (.arr g es)) (hq : readIndex q = some n) (hn : n < es.length) (hr : readIndex r = some m) (hmn : m ≠ n)
    (hr' : readIndex r' = some (if m < n then m else m - 1)) (ho : o.args) (ha : (o.under (p ++ [r])).applies d.root.plain) (hl : o.looks = false) :
    ∃ j1 j2 a, Call fl (go% Delete) [.bytes d.render] (p ++ [q]) (.ok [.bytes j1, .nil]) ∧ callOf fl (o.under (p ++ [r'])) j1 (.ok [.bytes a, .nil]) ∧
      callOf fl (o.under (p ++ [r])) d.render (.ok [.bytes j2, .nil]) ∧ Call fl (go% Delete) [.bytes j2] (p ++ [q]) (.ok [.bytes a, .nil]) :=
  let ⟨j1, j2, a, h1, h2, h3, h4⟩ := C137_delete_element_runs hd h hq hn hr hmn hr' ho ha hl
  ⟨j1, j2, a, run_call (o := .delete p q) h1, run_call h2, run_call h3, run_call (o := .delete p q) h4⟩

/-- A case: the first element goes, and a member of the third, then the second, is set. -/
example : ∃ j1 j2 a, Call fl (go% Delete) [.bytes Sample.doc.render] (Sample.toArr ++ [str "0"]) (.ok [.bytes j1, .nil]) ∧
    Call fl (go% Set) [.bytes j1, .bytes (str "7")] (Sample.toArr ++ [str "1", str "k"]) (.ok [.bytes a, .nil]) ∧
    Call fl (go% Set) [.bytes Sample.doc.render, .bytes (str "7")] (Sample.toArr ++ [str "2", str "k"]) (.ok [.bytes j2, .nil]) ∧
    Call fl (go% Delete) [.bytes j2] (Sample.toArr ++ [str "0"]) (.ok [.bytes a, .nil]) :=
  C137_text_runs (r := str "2") (r' := str "1") (o := .set [str "k"] (.lit (str "7"))) (n := 0) (m := 2) Sample.doc_wf Sample.get_arr (by decide +kernel)
    (by decide +kernel) (by decide +kernel) (by decide) (by decide +kernel) (by decide +kernel) (by decide +kernel) rfl

end Jin.Go
