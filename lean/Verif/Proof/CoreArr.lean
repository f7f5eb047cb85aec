import Verif.Proof.CoreLoc
/-!
# Proof.CoreArr — one array step of `core`
-/

namespace Jin
open Spec

theorem elem_run {σ ρ : Type} {json : Bytes} {body : Nat → σ → Ctl σ ρ} {F : Nat → σ → Prop}
    (H : Skips json body F) {l r : Bytes} {v : Json} {i d : Nat} {s : σ}
    (w1 : Ws l) (w2 : v.wf) (w3 : Ws r) (h1 : Seg json i l) (h2 : Seg json (i + l.length) v.render)
    (h3 : Seg json (i + l.length + v.render.length) r) (hp : PrevOk json i) (hs : F d s) :
    ∃ s', Run json body i s (i + l.length + v.render.length + r.length) s' ∧ F d s' := by
  obtain ⟨s1, r1, hs1⟩ := H.ws w1 h1 hs
  obtain ⟨s2, r2, hs2⟩ := H.value v w2 h2 (prevOk_ws h1 w1 hp) hs1
  obtain ⟨s3, r3, hs3⟩ := H.ws w3 h3 hs2
  exact ⟨s3, (r1.trans r2).trans r3, hs3⟩

section
variable {json : Bytes} {path : List Bytes} {k : Nat} {ai : Int}

/-- The comma before element `n + 1` is reached with `indexCount` increased by `n`. -/
theorem arr_to_comma (n : Nat) : ∀ {es : List (Elem Json)} {o : Nat} {v : Json} {i : Nat} {a : ArrSt},
    wfElems es → Seg json i (renderElems es ++ [93]) → PrevOk json i → elemAt es (n + 1) = some (o, v) →
    a.level = 1 → a.inQuote = false → a.found = false → a.indexCount + n < ai →
    ∃ ci l, Run json (arrBody json path k ai) i a ci { a with indexCount := a.indexCount + n } ∧
      json[ci]? = some 44 ∧ Ws l ∧ Seg json (ci + 1) l ∧ ci + 1 + l.length = i + o := by
  induction n with
  | zero =>
    intro es o v i a hw hs hp he hl hq hf hai
    match es, he with
    | [], he => simp [elemAt] at he
    | [e], he => simp [elemAt] at he
    | e :: e' :: es, he =>
      rw [renderElems_cons] at hs
      simp only [List.append_assoc, List.isEmpty_cons, Bool.false_eq_true, if_false] at hs
      rw [seg_append, seg_append, seg_append, List.cons_append, seg_cons, renderElems_cons,
        List.append_assoc, seg_append] at hs
      obtain ⟨h1, h2, h3, h4, h5, _⟩ := hs
      rw [wfElems_cons, wfElems_cons] at hw
      simp only [elemAt, Option.map_some, Option.some.injEq, Prod.mk.injEq] at he
      obtain ⟨s, hr, hs⟩ := elem_run (arr_skips (json := json) (path := path) (k := k) (ai := ai) a hq hf
        (by omega)) (d := 0) hw.1 hw.2.1 hw.2.2.1 h1 h2 h3 hp rfl
      subst hs
      refine ⟨_, e'.l, by simpa using hr, h4, hw.2.2.2.1, h5, ?_⟩
      rw [← he.1]; unfold elemLen; omega
  | succ n ih =>
    intro es o v i a hw hs hp he hl hq hf hai
    match es, he with
    | [], he => simp [elemAt] at he
    | [e], he => simp [elemAt] at he
    | e :: e' :: es, he =>
      rw [renderElems_cons] at hs
      simp only [List.append_assoc, List.isEmpty_cons, Bool.false_eq_true, if_false] at hs
      rw [seg_append, seg_append, seg_append, List.cons_append, seg_cons] at hs
      obtain ⟨h1, h2, h3, h4, h5⟩ := hs
      rw [wfElems_cons] at hw
      rw [elemAt] at he
      simp only [Option.map_eq_some_iff, Prod.exists, Prod.mk.injEq] at he
      obtain ⟨o', v', he, ho, hv⟩ := he
      obtain ⟨s, hr, hs⟩ := elem_run (arr_skips (json := json) (path := path) (k := k) (ai := ai) a hq hf
        (by omega)) (d := 0) hw.1 hw.2.1 hw.2.2.1 h1 h2 h3 hp rfl
      subst hs
      have hb : Run json (arrBody json path k ai) _ a _ { a with indexCount := a.indexCount + 1 } :=
        Run.next h4 (by
          have : ¬ (a.indexCount + 1 = ai) := by omega
          simp [arrBody, h4, isJSONChar, hq, hf, hl, this])
      obtain ⟨ci, l, hr2, g1, g2, g3, g4⟩ := ih (a := { a with indexCount := a.indexCount + 1 })
        hw.2.2.2 h5 (prevOk_succ h4 (by decide)) he hl hq hf (by simp; omega)
      refine ⟨ci, l, ?_, g1, g2, g3, ?_⟩
      · have := (Run.trans (by simpa using hr) hb).trans hr2
        simpa [Int.add_comm, Int.add_assoc, Int.add_left_comm] using this
      · rw [g4, ← ho]; unfold elemLen; omega

/-- The look-ahead after the comma lets a value pass. -/
theorem peek_ok {w : Bytes} {v : Json} (hv : v.wf) (hc : k + 1 = path.length ∨ v.isContainer) :
    ∀ {i : Nat}, Ws w → Seg json i w → Seg json (i + w.length) v.render →
    forUp json.length (peekBody json path k) i () = .done () := by
  induction w with
  | nil =>
    intro i _ _ hvs
    have h := hvs.first hv
    simp only [List.length_nil, Nat.add_zero] at h
    refine forUp_brk (lt_of_getElem? h) ?_
    rcases hc with hc | hc
    · simp [peekBody, h, space_eq, first_ns hv, hc]
    · rcases (first_container hv).1 hc with e | e <;> rw [e] at h <;> simp [peekBody, h] <;> decide
  | cons b w ih =>
    intro i hw hs hvs
    rw [seg_cons] at hs
    rw [ws_cons, Bool.and_eq_true] at hw
    rw [forUp_next (s' := ()) (lt_of_getElem? hs.1) (by simp [peekBody, hs.1, space_eq, hw.1])]
    exact ih hw.2 hs.2 (by rw [List.length_cons] at hvs; rwa [show i + 1 + w.length = i + (w.length + 1) by omega])

/-- Whitespace after the comma, before a container. -/
theorem arr_ws {w : Bytes} : ∀ {i : Nat} {a : ArrSt}, Ws w → Seg json i w →
    Run json (arrBody json path k ai) i a (i + w.length) a := by
  induction w with
  | nil => intro i a _ _; exact Run.refl
  | cons b w ih =>
    intro i a hw hs
    rw [seg_cons] at hs
    rw [ws_cons, Bool.and_eq_true] at hw
    have h1 : Run json (arrBody json path k ai) i a (i + 1) a :=
      Run.next hs.1 (by simp [arrBody, hs.1, isJSONChar_tok (Or.inr hw.1)])
    exact (h1.trans (ih hw.2 hs.2)).to (by simp; omega)

/-- Array search for an index other than 0. -/
theorem arr_search {es : List (Elem Json)} {g : Text} {n o : Nat} {v : Json} {i : Nat} {br : UInt8} {cur : Bytes}
    (hn : n ≠ 0) (hw : (Json.arr g es).wf) (hs : Seg json i (Json.arr g es).render)
    (he : elemAt es n = some (o, v)) (hc : k + 1 = path.length ∨ v.isContainer) (hk : k < path.length) :
    ∃ a, forUp json.length (arrBody json path k n) i ⟨0, false, false, 0, i, br, cur⟩ = .done a ∧
      a.found = true ∧
      ((k + 1 = path.length ∧ skipSpaces json a.offset = some (i + (1 + o)) ∧ 0 < a.offset) ∨
       (k + 1 ≠ path.length ∧ a.offset = i + (1 + o) ∧ a.brace = v.first ∧ path[k + 1]? = some a.cur)) := by
  obtain ⟨m, rfl⟩ := Nat.exists_eq_succ_of_ne_zero hn
  obtain ⟨h1, h2⟩ := seg_arr (elemAt_ne he) hs
  have hvs := elem_seg (wf_arr.1 hw).2 h2 he
  rw [forUp_next (s' := ⟨1, false, false, 0, i, br, cur⟩) (lt_of_getElem? h1)
    (by simp [arrBody, h1, isJSONChar])]
  obtain ⟨ci, l, hr, g1, g2, g3, g4⟩ := arr_to_comma (path := path) (k := k) (ai := (m.succ : Int)) m
    (a := ⟨1, false, false, 0, i, br, cur⟩)
    (wf_arr.1 hw).2 h2 (prevOk_succ h1 (by decide)) he rfl rfl rfl (by simp; omega)
  rw [hr]
  simp only [Int.zero_add]
  have hseg : Seg json (ci + 1 + l.length) v.render := by rw [g4]; exact hvs.1
  have hpeek := peek_ok (path := path) (k := k) hvs.2.1 hc g2 g3 hseg
  by_cases hlast : k + 1 = path.length
  · refine ⟨⟨1, false, true, m + 1, ci + 1, br, cur⟩, ?_, rfl, Or.inl ⟨hlast, ?_, Nat.succ_pos _⟩⟩
    · exact forUp_brk (lt_of_getElem? g1) (by simp [arrBody, g1, isJSONChar, hpeek, hlast])
    · rw [skipSpaces_value g3 g2 hvs.2.1 hseg, g4]; congr 1; omega
  · rcases hc with hc | hc
    · exact absurd hc hlast
    · have hlt : k + 1 < path.length := by omega
      rw [forUp_next (s' := ⟨1, false, true, m + 1, i, br, cur⟩) (lt_of_getElem? g1)
        (by simp [arrBody, g1, isJSONChar, hpeek, hlast]), arr_ws g2 g3]
      have hf := hseg.first hvs.2.1
      refine ⟨⟨1, false, true, m + 1, ci + 1 + l.length, v.first, path[k + 1]⟩, ?_, rfl, Or.inr ⟨hlast, ?_, rfl, ?_⟩⟩
      · refine forUp_brk (lt_of_getElem? hf) ?_
        rcases (first_container hvs.2.1).1 hc with e | e <;> rw [e] at hf ⊢ <;>
          simp [arrBody, hf, isJSONChar, hlt]
      · simp only; omega
      · simp [hlt]

/-- Array search for index 0. -/
theorem zero_search {es : List (Elem Json)} {g : Text} {o : Nat} {v : Json} {i : Nat} {br : UInt8} {cur : Bytes}
    (hw : (Json.arr g es).wf) (hs : Seg json i (Json.arr g es).render)
    (he : elemAt es 0 = some (o, v)) (hc : k + 1 = path.length ∨ v.isContainer) (hk : k < path.length) :
    ∃ z, forUp json.length (zeroBody json path k) (i + 1) ⟨i + 1, br, cur⟩ = .done z ∧
      ((k + 1 = path.length ∧ skipSpaces json z.offset = some (i + (1 + o)) ∧ 0 < z.offset) ∨
       (k + 1 ≠ path.length ∧ z.offset = i + (1 + o) ∧ z.brace = v.first ∧ path[k + 1]? = some z.cur)) := by
  obtain ⟨h1, h2⟩ := seg_arr (elemAt_ne he) hs
  have hvs := elem_seg (wf_arr.1 hw).2 h2 he
  match es, he, h2 with
  | [], he, _ => simp [elemAt] at he
  | e :: es, he, h2 =>
    simp only [elemAt, Option.some.injEq, Prod.mk.injEq] at he
    obtain ⟨rfl, rfl⟩ := he
    rw [renderElems_cons, List.append_assoc, seg_append] at h2
    have hl : Ws e.l := ((wfElems_cons e es).1 (wf_arr.1 hw).2).1
    have hskip := skipSpaces_value h2.1 hl hvs.2.1 hvs.1
    have ws : ∀ (w : Bytes) (j : Nat), Ws w → Seg json j w → Run json (zeroBody json path k) j ⟨i + 1, br, cur⟩
        (j + w.length) ⟨i + 1, br, cur⟩ := by
      intro w
      induction w with
      | nil => intro j _ _; exact Run.refl
      | cons b w ih =>
        intro j hw hs
        rw [seg_cons] at hs
        rw [ws_cons, Bool.and_eq_true] at hw
        have h1 : Run json (zeroBody json path k) j ⟨i + 1, br, cur⟩ (j + 1) ⟨i + 1, br, cur⟩ :=
          Run.next hs.1 (by simp [zeroBody, hs.1, space_eq, hw.1])
        exact (h1.trans (ih (j + 1) hw.2 hs.2)).to (by simp; omega)
    rw [ws e.l (i + 1) hl h2.1]
    have hf := hvs.1.first hvs.2.1
    have hns : space e.v.first = false := first_ns hvs.2.1
    by_cases hcon : e.v.isContainer
    · have hbr := (first_container hvs.2.1).1 hcon
      by_cases hlast : k + 1 = path.length
      · refine ⟨⟨i + 1 + e.l.length, e.v.first, cur⟩, ?_, Or.inl ⟨hlast, ?_, by simp; omega⟩⟩
        · refine forUp_brk (lt_of_getElem? hf) ?_
          rcases hbr with e1 | e1 <;> rw [e1] at hf hns ⊢ <;> simp [zeroBody, hf, hns, hlast]
        · have := skipSpaces_value (w := []) (i := i + 1 + e.l.length) (Seg.nil _ _) rfl hvs.2.1
            (by simpa using hvs.1)
          simp only [List.length_nil, Nat.add_zero] at this
          simp only [this]; congr 1; omega
      · have hlt : k + 1 < path.length := by omega
        refine ⟨⟨i + 1 + e.l.length, e.v.first, path[k + 1]⟩, ?_, Or.inr ⟨hlast, by simp only; omega, rfl, by simp [hlt]⟩⟩
        refine forUp_brk (lt_of_getElem? hf) ?_
        rcases hbr with e1 | e1 <;> rw [e1] at hf hns ⊢ <;> simp [zeroBody, hf, hns, hlast, hlt]
    · rcases hc with hc | hc
      · refine ⟨⟨i + 1, br, cur⟩, ?_, Or.inl ⟨hc, by rw [hskip]; congr 1; omega, Nat.succ_pos _⟩⟩
        refine forUp_brk (lt_of_getElem? hf) ?_
        have := mt (first_container hvs.2.1).2 hcon
        rw [not_or] at this
        simp [zeroBody, hf, hns, this.1, this.2, hc]
      · exact absurd hc hcon

end

end Jin
