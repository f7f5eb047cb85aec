import Verif.Props.Sample
import Verif.Proof.GetSet
import Verif.Proof.Tree
import Verif.Proof.Num
/-!
# Props.Get — C01, C02, C05
-/

namespace Jin
open Spec

/-- **C01** `Get` returns exactly the addressed value: its text, without quotes for a
string.  `Doc.get?` resolves a key to the first member carrying it. -/
theorem C01_get_exact (d : Doc) (path : List Text) (w : Json) (hd : d.wf) (hp : path ≠ [])
    (h : d.get? path = some w) : Get d.render path = .ok w.content :=
  get_ok hd hp h

/-- With no path `Get` returns the whole text. -/
theorem C01_get_root (json : Bytes) : Get json [] = .ok json := rfl

example : Sample.doc.wf ∧ Sample.toStr ≠ [] ∧ Sample.doc.get? Sample.toStr = some (.str (str "x]\\\\")) ∧
    Get Sample.doc.render Sample.toStr = .ok (str "x]\\\\") :=
  ⟨Sample.doc_wf, by decide, Sample.get_str, C01_get_exact _ _ _ Sample.doc_wf (by decide) Sample.get_str⟩
/-- Duplicate key: the first one counts. -/
example : Get Sample.doc.render [str "a"] = .ok (str "1") :=
  C01_get_exact Sample.doc _ (.lit (str "1")) Sample.doc_wf (by decide) (by decide +kernel)

/-- **C02** Two texts of one document that differ only in whitespace between tokens give
the same `Get` for every path to a scalar. -/
theorem C02_get_format_insensitive (d₁ d₂ : Doc) (path : List Text) (w : Json) (h₁ : d₁.wf) (h₂ : d₂.wf)
    (hs : d₁.root.strip = d₂.root.strip) (hp : path ≠ [])
    (h : d₁.get? path = some w) (hw : w.isContainer = false) :
    Get d₁.render path = Get d₂.render path := by
  have e := congrArg (fun j => j.get? path) hs
  simp only [get_strip] at e
  rw [show d₁.root.get? path = some w from h] at e
  obtain ⟨w', hw', e'⟩ := Option.map_eq_some_iff.1 e.symm
  rw [get_ok h₁ hp h, get_ok h₂ hp hw', ← content_strip hw, ← e', content_strip]
  rw [← isContainer_strip, e', isContainer_strip, hw]

example : ∃ d₂ : Doc, d₂.wf ∧ Sample.doc.root.strip = d₂.root.strip ∧ d₂.render ≠ Sample.doc.render ∧
    Get Sample.doc.render Sample.toTrue = Get d₂.render Sample.toTrue := by
  refine ⟨⟨[], Sample.doc.root.strip, []⟩, by decide +kernel, by decide +kernel, by decide +kernel, ?_⟩
  exact C02_get_format_insensitive _ _ _ _ Sample.doc_wf (by decide +kernel) (by decide +kernel) (by decide)
    Sample.get_true rfl

/-- **C05** `GetString` is `Get`, on all inputs. -/
theorem C05_getString (json : Bytes) (path : List Bytes) : GetString json path = Get json path := rfl

/-- **C05** `GetInt` reads the addressed text as a 64-bit decimal integer. -/
theorem C05_getInt (d : Doc) (path : List Text) (w : Json) (hd : d.wf) (hp : path ≠ [])
    (h : d.get? path = some w) :
    GetInt d.render path =
      match readInt w.content with
      | some n => .ok n
      | none => .err (.integerParse w.content) := by
  unfold GetInt GetString
  rw [get_ok hd hp h]
  simp only [Out.bind_ok, atoi_eq]
  cases readInt w.content <;> rfl

/-- **C05** `GetFloat` reads the addressed text with `strconv.ParseFloat`. -/
theorem C05_getFloat {F : Type} (fl : FloatLib F) (d : Doc) (path : List Text) (w : Json) (hd : d.wf) (hp : path ≠ [])
    (h : d.get? path = some w) :
    GetFloat fl d.render path =
      match fl.parse w.content with
      | some x => .ok x
      | none => .err (.floatParse w.content) := by
  unfold GetFloat GetString
  rw [get_ok hd hp h]
  simp only [Out.bind_ok]
  cases fl.parse w.content <;> rfl

/-- **C05** `GetBool` accepts exactly the texts `true` and `false`. -/
theorem C05_getBool (d : Doc) (path : List Text) (w : Json) (hd : d.wf) (hp : path ≠ [])
    (h : d.get? path = some w) :
    GetBool d.render path =
      if w.content = str "true" then .ok true
      else if w.content = str "false" then .ok false
      else .err (.boolParse w.content) := by
  have e1 : str "true" = bTrue := by decide +kernel
  have e2 : str "false" = bFalse := by decide +kernel
  unfold GetBool GetString
  rw [get_ok hd hp h]
  simp only [Out.bind_ok, e1, e2, beq_iff_eq]

/-- **C05** Every typed getter passes on the error (or panic) of `Get`, on all inputs. -/
theorem C05_errors {F : Type} (fl : FloatLib F) (json : Bytes) (path : List Bytes) (e : Err)
    (h : Get json path = .err e) :
    GetString json path = .err e ∧ GetInt json path = .err e ∧ GetFloat fl json path = .err e ∧
      GetBool json path = .err e := by
  unfold GetInt GetFloat GetBool GetString
  rw [h]
  exact ⟨rfl, rfl, rfl, rfl⟩

example : GetInt Sample.doc.render Sample.toTen = .ok 10 := by
  rw [C05_getInt _ _ _ Sample.doc_wf (by decide) Sample.get_ten]; decide +kernel
example : GetInt Sample.doc.render Sample.toStr = .err (.integerParse (str "x]\\\\")) := by
  rw [C05_getInt _ _ _ Sample.doc_wf (by decide) Sample.get_str]; decide +kernel
example : GetBool Sample.doc.render Sample.toTrue = .ok true := by
  rw [C05_getBool _ _ _ Sample.doc_wf (by decide) Sample.get_true]; decide +kernel
example : Get Sample.doc.render [str "b\\\"]", str "x"] = .err .indexExpected := by decide +kernel

end Jin
