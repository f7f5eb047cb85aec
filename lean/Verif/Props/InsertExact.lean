import Verif.Proof.Commas
import Verif.Props.TextRound
/-!
# Props.InsertExact — C23: exactly when `Insert` writes JSON
-/

namespace Jin
open Spec

/-- **C23** What `Insert` writes before the last of several elements when white space precedes that element, for every new text `v`: a second comma, in front of
the last byte of the white space, and no comma behind `v`. This is not the text of any document. -/
theorem C23_last {d : Doc} {p : List Text} {g : Text} {es : List (Elem Json)} {n : Nat} {e : Elem Json} (hd : d.wf)
    (h : d.get? p = some (.arr g es)) (hn : n + 1 = es.length) (h0 : n ≠ 0) (hb : (n : Int) ≤ 9223372036854775807) (he : es[n]? = some e) (hl : e.l ≠ [])
    (v : Bytes) : ∃ A B l b, e.l = l ++ [b] ∧ d.render = A ++ (44 :: (e.l ++ (e.v.render ++ B))) ∧
      Insert d.render n v p = .done (A ++ (44 :: (l ++ (44 :: (v ++ (b :: (e.v.render ++ B))))))) none ∧
      ∀ d' : Doc, d'.wf → d'.render ≠ A ++ (44 :: (l ++ (44 :: (v ++ (b :: (e.v.render ++ B)))))) :=
  insert_last hd h hn h0 hb he hl v

/-- **C23** The condition of `C23_insert_partial` is the exact one: `Insert` of a JSON value before an element that exists leaves JSON if and only if the element
is not the last of several, or no white space precedes it. -/
theorem C23_iff {d : Doc} {p : List Text} {g : Text} {es : List (Elem Json)} {n : Nat} {v : Json} (hd : d.wf)
    (h : d.get? p = some (.arr g es)) (hn : n < es.length) (hb : (n : Int) ≤ 9223372036854775807) (hv : v.wf) :
    (∃ d' : Doc, d'.wf ∧ Insert d.render n v.render p = .done d'.render none) ↔ n + 1 < es.length ∨ n = 0 ∨ ∃ e, es[n]? = some e ∧ e.l = [] := by
  constructor
  · rintro ⟨d', hd', hi⟩
    apply Classical.byContradiction
    intro hno
    simp only [not_or] at hno
    obtain ⟨h1, h2, h3⟩ := hno
    obtain ⟨A, B, l, b, -, -, g1, g2⟩ := insert_last hd h (by omega) h2 hb (List.getElem?_eq_getElem hn)
      (fun hl => h3 ⟨_, List.getElem?_eq_getElem hn, hl⟩) v.render
    rw [hi] at g1
    injection g1 with g1
    exact g2 d' hd' g1
  · intro hok
    obtain ⟨w', h1, h2, -⟩ := C23_insert_partial d p g es n v hd h hn hb hv hok
    exact ⟨_, h2, h1⟩

/-- Cases: before the last element of `{"a":[1, 2]}`, and before its first. -/
def Sample.spaced : Doc := ⟨[], .obj [] [Sample.mem (str "a") (.arr [] [Sample.el (.lit (str "1")), ⟨str " ", .lit (str "2"), []⟩])], []⟩

example : (¬ ∃ d' : Doc, d'.wf ∧ Insert Sample.spaced.render 1 (str "7") [str "a"] = .done d'.render none) ∧
    ∃ d' : Doc, d'.wf ∧ Insert Sample.spaced.render 0 (str "7") [str "a"] = .done d'.render none :=
  ⟨fun h => absurd ((C23_iff (d := Sample.spaced) (n := 1) (v := .lit (str "7")) (g := [])
      (es := [Sample.el (.lit (str "1")), ⟨str " ", .lit (str "2"), []⟩]) (by decide +kernel) (by decide +kernel) (by decide) (by decide)
      (by decide +kernel)).1 h) (by simp; decide +kernel),
    (C23_iff (d := Sample.spaced) (n := 0) (v := .lit (str "7")) (g := []) (es := [Sample.el (.lit (str "1")), ⟨str " ", .lit (str "2"), []⟩])
      (by decide +kernel) (by decide +kernel) (by decide) (by decide) (by decide +kernel)).2 (by simp)⟩

end Jin

namespace Jin.Go
open Spec

/-- **C100** The same for the text. -/
theorem C100_insert_iff (fl : FloatLib UInt64) {d : Doc} {p : List Text} {g : Text} {es : List (Elem Json)} {n : Nat} {v : Json} (hd : d.wf)
    (h : d.get? p = some (.arr g es)) (hn : n < es.length) (hb : (n : Int) ≤ 9223372036854775807) (hv : v.wf) :
    (∃ d' : Doc, d'.wf ∧ Call fl (go% Insert) [.bytes d.render, .int n, .bytes v.render] p (.ok [.bytes d'.render, .nil])) ↔
      n + 1 < es.length ∨ n = 0 ∨ ∃ e, es[n]? = some e ∧ e.l = [] := by
  rw [← C23_iff hd h hn hb hv]
  have ht := text_Insert fl d.render p n (some v.render)
  exact ⟨fun ⟨d', h1, h2⟩ => ⟨d', h1, ht.done_inv h2⟩, fun ⟨d', h1, h2⟩ => ⟨d', h1, ht.done h2⟩⟩

end Jin.Go
