import Verif.Props.Sample
import Verif.Proof.GetSet
import Verif.Proof.Tree
import Verif.Proof.Format
/-!
# Props.Set — C07–C15
-/

namespace Jin
open Spec

/-- **C07** `Set` replaces exactly the bytes of the addressed value, for arbitrary new
bytes.  `A` and `B` are the text before and after the value: they are the same
whatever the value is replaced by. -/
theorem C07_set_exact (d : Doc) (path : List Text) (w : Json) (hd : d.wf) (hp : path ≠ [])
    (h : d.get? path = some w) :
    ∃ A B : Text, d.render = A ++ w.render ++ B ∧
      (∀ x : Json, (d.set path x).render = A ++ x.render ++ B) ∧
      (∀ new : Bytes, Set d.render new path = .done (A ++ new ++ B) none) := by
  obtain ⟨f, hf, rfl⟩ := findAt_of_get h
  obtain ⟨A, B, -, a2, a3⟩ := find_upd path hf
  refine ⟨d.lead ++ A, B ++ d.trail, by simp [Doc.render, a2], ?_, ?_⟩
  · intro x; simp [Doc.render, Doc.set, Json.set, a3]
  · intro new
    rw [set_ok hd hp h]
    simp [Doc.render, Doc.set, Json.set, a3, render_lit]

/-- **C08** After `Set` of a well-formed value the text is well-formed, is the document
with that value in place, and `Get` returns the new value. -/
theorem C08_get_after_set (d : Doc) (path : List Text) (w x : Json) (hd : d.wf) (hp : path ≠ [])
    (h : d.get? path = some w) (hx : x.wf) :
    Set d.render x.render path = .done (d.set path x).render none ∧ (d.set path x).wf ∧
      (d.set path x).get? path = some x ∧ Get (d.set path x).render path = .ok x.content := by
  have h2 : (d.set path x).wf := doc_upd_wf (f := fun _ => x) hd h hx
  have h3 : (d.set path x).get? path = some x := get_upd path h (fun _ => x)
  refine ⟨?_, h2, h3, get_ok h2 hp h3⟩
  rw [set_ok hd hp h, set_render_eq h (x := .lit x.render) (y := x) (render_lit _)]

/-- **C09** `Set` leaves every diverging path alone. -/
theorem C09_set_frame (d : Doc) (p q : List Text) (w v x : Json) (hd : d.wf)
    (hw : d.get? p = some w) (hv : d.get? q = some v) (hdv : d.diverge p q) (hx : x.wf) :
    ∃ json, Set d.render x.render p = .done json none ∧ Get json q = Get d.render q := by
  have hp : p ≠ [] := by rintro rfl; simp [Doc.diverge, Json.diverge] at hdv
  have hq : q ≠ [] := by rintro rfl; cases p <;> simp [Doc.diverge, Json.diverge] at hdv
  obtain ⟨h1, h2, -, -⟩ := C08_get_after_set d p w x hd hp hw hx
  refine ⟨_, h1, ?_⟩
  have h3 : (d.set p x).get? q = some v := by
    rw [← hv]; exact get_upd_diverge p hdv _
  rw [get_ok h2 hq h3, get_ok hd hq hv]

/-- A value used in the examples: `[{}, "z"]`. -/
def Sample.val : Json := .arr [] [Sample.el (.obj [] []), ⟨str " ", .str (str "z"), []⟩]

/-- The hypotheses of C07–C15 hold for a nested document with escapes. -/
theorem Sample.sets : Sample.doc.wf ∧ Sample.toStr ≠ [] ∧ Sample.doc.get? Sample.toStr = some (.str (str "x]\\\\")) ∧
    Sample.doc.get? Sample.toTrue = some (.lit bTrue) ∧ Sample.doc.diverge Sample.toStr Sample.toTrue ∧ Sample.val.wf :=
  ⟨Sample.doc_wf, by decide, Sample.get_str, Sample.get_true,
    diverge_of (a := 1) (b := 3) (by decide +kernel) (by decide +kernel) (Or.inl (by decide)), by decide +kernel⟩

example : Sample.val.render = str "[{}, \"z\"]" := by decide +kernel
example : ∃ json, Set Sample.doc.render Sample.val.render Sample.toStr = .done json none ∧
    Get json Sample.toTrue = Get Sample.doc.render Sample.toTrue :=
  C09_set_frame _ _ _ _ _ _ Sample.sets.1 Sample.sets.2.2.1 Sample.sets.2.2.2.1 Sample.sets.2.2.2.2.1 Sample.sets.2.2.2.2.2

/-- **C10** `SetInt` / `GetInt` round trip. -/
theorem C10_setInt_getInt (d : Doc) (path : List Text) (w : Json) (hd : d.wf) (hp : path ≠ [])
    (h : d.get? path = some w) (n : Int) (h1 : -9223372036854775808 ≤ n) (h2 : n ≤ 9223372036854775807) :
    ∃ json, SetInt d.render n path = .done json none ∧ GetInt json path = .ok n := by
  obtain ⟨a, -, -, b⟩ := C08_get_after_set d path w (.lit (itoa n)) hd hp h (itoa_wf n)
  refine ⟨_, a, ?_⟩
  unfold GetInt GetString
  rw [b]
  simp only [Json.content, render_lit, Out.bind_ok, atoi_eq, readInt_itoa h1 h2]

/-- **C11** `SetBool` / `GetBool` round trip. -/
theorem C11_setBool_getBool (d : Doc) (path : List Text) (w : Json) (hd : d.wf) (hp : path ≠ [])
    (h : d.get? path = some w) (b : Bool) :
    ∃ json, SetBool d.render b path = .done json none ∧ GetBool json path = .ok b := by
  obtain ⟨a, -, -, g⟩ := C08_get_after_set d path w (.lit (boolText b)) hd hp h (by cases b <;> decide)
  refine ⟨_, a, ?_⟩
  unfold GetBool GetString
  rw [g]
  cases b <;> rfl

/-- **C12** `SetFloat` / `GetFloat` round trip, for whatever `strconv` does: if `x` is
printed as a plain token that is read back as `x`. -/
theorem C12_setFloat_getFloat {F : Type} (fl : FloatLib F) (x : F) (d : Doc) (path : List Text) (w : Json)
    (hd : d.wf) (hp : path ≠ []) (h : d.get? path = some w)
    (hplain : (Json.lit (fl.format x)).wf) (hback : fl.parse (fl.format x) = some x) :
    ∃ json, SetFloat fl d.render x path = .done json none ∧ GetFloat fl json path = .ok x := by
  obtain ⟨a, -, -, g⟩ := C08_get_after_set d path w (.lit (fl.format x)) hd hp h hplain
  refine ⟨_, a, ?_⟩
  unfold GetFloat GetString
  rw [g]
  simp only [Json.content, render_lit, Out.bind_ok, hback]

example : ∃ (F : Type) (fl : FloatLib F) (x : F), (Json.lit (fl.format x)).wf ∧ fl.parse (fl.format x) = some x :=
  ⟨Bool, ⟨fun t => some (t == str "-1.5"), fun b => if b then str "-1.5" else str "7"⟩, true, by decide +kernel,
    by decide +kernel⟩

/-- **C13** `SetString` / `GetString` round trip, for every string that is valid string
content and is not wrapped in brackets or braces (those are written as they are).  The
only thing used of `strconv.ParseFloat` is that it accepts only plain tokens. -/
theorem C13_setString_getString (isFloat : Bytes → Bool) (hf : ∀ v, isFloat v = true → (Json.lit v).wf)
    (d : Doc) (path : List Text) (w : Json) (hd : d.wf) (hp : path ≠ []) (h : d.get? path = some w)
    (t : Text) (h1 : strOk t) (h2 : ¬ (t.head? = some 91 ∧ t.getLast? = some 93))
    (h3 : ¬ (t.head? = some 123 ∧ t.getLast? = some 125)) :
    ∃ json, SetString isFloat d.render t path = .done json none ∧ GetString json path = .ok t := by
  obtain ⟨x, x1, -, x2, x3⟩ := formatType_value hf ⟨h1, h2, h3⟩
  obtain ⟨a, -, -, g⟩ := C08_get_after_set d path w x hd hp h x1
  exact ⟨_, by rw [SetString, x2, a], by rw [GetString, g, x3]⟩

example : strOk (str "it is \\\"5\\\" [x") ∧ ∃ isFloat : Bytes → Bool, isFloat (str "2.5") = true ∧
    ∀ v, isFloat v = true → (Json.lit v).wf :=
  ⟨by decide +kernel, fun v => v == str "2.5", by decide +kernel, fun v hv => by
    rw [eq_of_beq hv]; decide +kernel⟩

/-- **C14** Last writer wins. -/
theorem C14_set_set (d : Doc) (path : List Text) (w v₁ : Json) (new₂ : Bytes) (hd : d.wf) (hp : path ≠ [])
    (h : d.get? path = some w) (h₁ : v₁.wf) :
    ∃ json, Set d.render v₁.render path = .done json none ∧ Set json new₂ path = Set d.render new₂ path := by
  obtain ⟨a, b, c, -⟩ := C08_get_after_set d path w v₁ hd hp h h₁
  refine ⟨_, a, ?_⟩
  rw [set_ok b hp c, set_ok hd hp h]
  congr 2
  simp only [Doc.set, Json.set]
  rw [upd_upd path h]; rfl

/-- **C14** Setting a value to its own text changes nothing. -/
theorem C14_set_self (d : Doc) (path : List Text) (w : Json) (hd : d.wf) (hp : path ≠ [])
    (h : d.get? path = some w) : Set d.render w.render path = .done d.render none := by
  rw [(C08_get_after_set d path w w hd hp h (get_wf path (doc_wf.1 hd).2.1 h)).1]
  congr 1
  simp only [Doc.render, Doc.set, Json.set]
  rw [upd_self path h _ rfl]

/-- **C15** Sets at diverging paths commute. -/
theorem C15_sets_commute (d : Doc) (p q : List Text) (w v x y : Json) (hd : d.wf)
    (hw : d.get? p = some w) (hv : d.get? q = some v) (hdv : d.diverge p q) (hx : x.wf) (hy : y.wf) :
    ∃ j₁ j₂, Set d.render x.render p = .done j₁ none ∧ Set d.render y.render q = .done j₂ none ∧
      Set j₁ y.render q = Set j₂ x.render p := by
  have hp : p ≠ [] := by rintro rfl; simp [Doc.diverge, Json.diverge] at hdv
  have hq : q ≠ [] := by rintro rfl; cases p <;> simp [Doc.diverge, Json.diverge] at hdv
  obtain ⟨a1, a2, -, -⟩ := C08_get_after_set d p w x hd hp hw hx
  obtain ⟨b1, b2, -, -⟩ := C08_get_after_set d q v y hd hq hv hy
  refine ⟨_, _, a1, b1, ?_⟩
  have h3 : (d.set p x).get? q = some v := by rw [← hv]; exact get_upd_diverge p hdv _
  have h4 : (d.set q y).get? p = some w := by rw [← hw]; exact get_upd_diverge q (diverge_comm p hdv) _
  rw [(C08_get_after_set _ q v y a2 hq h3 hy).1, (C08_get_after_set _ p w x b2 hp h4 hx).1]
  congr 2
  simp only [Doc.set, Json.set]
  rw [upd_comm p hdv]

end Jin
