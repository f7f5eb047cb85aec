import Verif.Props.Bytes
import Verif.Proof.AddIns
import Verif.Model.ParserMore
/-!
# Props.Refuse — C73, C74: calls that cannot work say why
-/

namespace Jin
open Spec

/-! ### Truncated texts -/

/-- In a text without quotes and brackets the search for an element counts commas. -/
theorem arr_open {json : Bytes} {path : List Bytes} {k : Nat} {n : Int} {o : Nat} {b : UInt8} {cur : Bytes} {rest : Bytes} :
    ∀ {i : Nat} {c : Int}, Seg json i rest → json.length = i + rest.length →
    (∀ x ∈ rest, x ≠ 34 ∧ x ≠ 91 ∧ x ≠ 93 ∧ x ≠ 123 ∧ x ≠ 125) → c + rest.count 44 < n →
    ∃ a, forUp json.length (arrBody json path k n) i ⟨1, false, false, c, o, b, cur⟩ = .done a ∧ a.found = false := by
  induction rest with
  | nil =>
    intro i c _ hl _ _
    rw [forUp, if_neg (by simp at hl; omega)]
    exact ⟨_, rfl, rfl⟩
  | cons x rest ih =>
    intro i c hs hl hx hn
    rw [seg_cons] at hs
    have h := hx x (by simp)
    have hxs := fun y hy => hx y (List.mem_cons_of_mem _ hy)
    have hlen : json.length = i + 1 + rest.length := by simp at hl; omega
    by_cases h44 : x = 44
    · subst h44
      rw [List.count_cons_self] at hn
      have hb : arrBody json path k n i ⟨1, false, false, c, o, b, cur⟩ = .next ⟨1, false, false, c + 1, o, b, cur⟩ := by
        unfold arrBody
        simp only [hs.1, isJSONChar]
        have : ((c + 1 == n) = false) := by
          rw [beq_eq_false_iff_ne]; omega
        simp [this]
      rw [forUp_next (lt_of_getElem? hs.1) hb]
      exact ih hs.2 hlen hxs (by omega)
    · rw [List.count_cons_of_ne h44] at hn
      have hb : arrBody json path k n i ⟨1, false, false, c, o, b, cur⟩ = .next ⟨1, false, false, c, o, b, cur⟩ := by
        unfold arrBody
        simp [hs.1, isJSONChar, h, h44]
      rw [forUp_next (lt_of_getElem? hs.1) hb]
      exact ih hs.2 hlen hxs (by omega)

/-- **C73** An array that is cut off: an index beyond the commas there are is out of range. -/
theorem C73_open_array (rest : Bytes) (q : Bytes) (n : Int) (js : Bool) (hx : ∀ x ∈ rest, x ≠ 34 ∧ x ≠ 91 ∧ x ≠ 93 ∧ x ≠ 123 ∧ x ≠ 125)
    (hq : readInt q = some n) (hn : rest.count 44 < n) (hr : rest ≠ []) (qs : List Bytes) :
    core (91 :: rest) js (q :: qs) = .err .indexOutOfRange ∧ Get (91 :: rest) (q :: qs) = .err .indexOutOfRange ∧
    (∀ v, Set (91 :: rest) v (q :: qs) = .done (91 :: rest) (some .indexOutOfRange)) ∧
    Delete (91 :: rest) (q :: qs) = .done (91 :: rest) (some .indexOutOfRange) := by
  have key : ∀ js, core (91 :: rest) js (q :: qs) = .err .indexOutOfRange := by
    intro js
    have hl : ¬ (91 :: rest).length < 2 := by
      cases rest <;> simp at hr ⊢
    unfold core
    rw [if_neg hl]
    have hsk : skipSpaces (91 :: rest) 0 = some 0 :=
      skipSpaces_ws (w := []) (c := 91) (Seg.nil _ _) rfl rfl (by decide)
    simp only [hsk, List.getElem?_cons_zero]
    rw [List.length_cons, coreLoop, if_pos (by simp), coreStep, if_pos (by simp), atoi_eq, hq]
    have h0 : (n == 0) = false := by rw [beq_eq_false_iff_ne]; omega
    have hseg : Seg (91 :: rest) 1 rest := by simp [Seg]
    obtain ⟨a, h1, h2⟩ := arr_open (json := 91 :: rest) (path := q :: qs) (k := 0) (n := n) (o := 0) (b := 91) (cur := q) (c := 0)
      hseg (by simp; omega) hx (by omega)
    have hb : arrBody (91 :: rest) (q :: qs) 0 n 0 ⟨0, false, false, 0, 0, 91, q⟩ = .next ⟨1, false, false, 0, 0, 91, q⟩ := by
      simp [arrBody, isJSONChar]
    simp only [h0, Bool.false_eq_true, if_false]
    rw [forUp_next (by simp) hb, h1]
    simp [h2]
  refine ⟨key js, ?_, fun v => ?_, ?_⟩
  · unfold Get; rw [if_neg (by simp), key]; rfl
  · unfold Set; rw [if_neg (by simp), key]; rfl
  · unfold Delete; rw [if_neg (by simp), key]; rfl

example : readInt (str "2") = some 2 ∧ ((str "1, 2").count 44 : Int) < 2 ∧ (∀ x ∈ str "1, 2", x ≠ 34 ∧ x ≠ 91 ∧ x ≠ 93 ∧ x ≠ 123 ∧ x ≠ 125) ∧
    Get (str "[1, 2") [str "2"] = .err .indexOutOfRange := by decide +kernel

/-- **C73** A text that is an opening bracket after spaces. -/
theorem C73_open_root (ws : Bytes) (hw : Ws ws) (hne : ws ≠ []) (v : Bytes) :
    Add (ws ++ [91]) v [] = .done (ws ++ [91]) (some (.badJSON ws.length)) ∧
    (∀ i, Insert (ws ++ [91]) i v [] = .done (ws ++ [91]) (some (.badJSON ws.length))) ∧
    (∀ k, AddKeyValue (ws ++ [123]) k (some v) [] = .done (ws ++ [123]) (some (.badJSON ws.length))) := by
  have key : ∀ (o c : UInt8) (e : Err), space o = false → containerSpan (ws ++ [o]) o c e [] = .err (.badJSON ws.length) := by
    intro o c e ho
    have h1 : firstNS (ws ++ [o]) 0 (ws ++ [o]).length = some ws.length := by
      have := firstNS_ws (json := ws ++ [o]) (w := ws) (c := o) (hi := (ws ++ [o]).length) (i := 0) (by simp [Seg]) hw (by simp) ho (by simp)
      simpa using this
    unfold containerSpan rootSpan
    simp only [h1, List.length_nil, beq_self_eq_true, if_true]
    simp
  have hl : ∀ o : UInt8, ¬ (ws ++ [o]).length < 2 := by
    intro o
    cases ws <;> simp at hne ⊢
  refine ⟨?_, fun i => ?_, fun k => ?_⟩
  · unfold Add
    rw [if_neg (hl 91), key 91 93 _ (by decide)]; rfl
  · unfold Insert
    rw [key 91 93 _ (by decide)]; rfl
  · show addKeyValue _ _ _ _ = _
    unfold addKeyValue
    rw [if_neg (hl 123), key 123 125 _ (by decide)]; rfl

example : Ws (str "\n ") ∧ Add (str "\n [") (str "1") [] = .done (str "\n [") (some (.badJSON 2)) := by decide +kernel

/-! ### Texts that are empty, or nothing but spaces -/

theorem skipSpaces_all {json : Bytes} (h : ∀ c ∈ json, space c = true) (i : Nat) : skipSpaces json i = none := by
  fun_induction skipSpaces json i with
  | case1 => rfl
  | case2 i c hc hs ih => exact ih
  | case3 i c hc hs => exact absurd (h c (List.mem_of_getElem? hc)) hs

/-- **C73** The type questions on the empty text. -/
theorem C73_empty_text (isFloat : Bytes → Bool) (path : List Bytes) :
    IsObject [] path = .err (.badJSON 0) ∧ IsArray [] path = .err (.badJSON 0) ∧ IsValue [] path = .err (.badJSON 0) ∧
    GetType isFloat [] path = .err (.badJSON 0) := ⟨rfl, rfl, rfl, rfl⟩

/-- **C73** `IterateArray` on texts that cannot be an array calls nothing. -/
theorem C73_iterateArray {σ : Type} (json : Bytes) (cb : σ → Bytes → Cb σ) (path : List Bytes) (u : σ) :
    (json.length < 2 → IterateArray json cb path u = .done u (some (.badJSON 0))) ∧
    (json.length = 2 → json ≠ str "[]" → IterateArray json cb path u = .done u (some (.badJSON 0))) ∧
    (json = str "[]" → IterateArray json cb path u = .done u none) ∧
    (2 < json.length → (∀ c ∈ json, space c = true) → IterateArray json cb [] u = .done u (some (.badJSON ((json.length : Int) - 1)))) := by
  refine ⟨fun h => ?_, fun h hne => ?_, fun h => ?_, fun h hs => ?_⟩
  · unfold IterateArray; rw [if_pos h]
  · unfold IterateArray
    have : ¬ json = bArr := by rw [show bArr = str "[]" by decide +kernel]; exact hne
    rw [if_neg (by omega), if_pos (by simp [h]), if_neg (by simpa using this)]
  · subst h
    unfold IterateArray
    rw [if_neg (by decide +kernel), if_pos (by decide +kernel), if_pos (by decide +kernel)]
  · unfold IterateArray
    rw [if_neg (by omega), if_neg (by simp; omega)]
    simp [skipSpaces_all hs]

example : IterateArray (str " \n\t") (fun (u : Nat) _ => .ret (u + 1) true none) [] 0 = .done 0 (some (.badJSON 2)) ∧
    IterateArray (str "{}") (fun (u : Nat) _ => .ret (u + 1) true none) [] 0 = .done 0 (some (.badJSON 0)) := by
  refine ⟨((C73_iterateArray (str " \n\t") _ [] 0).2.2.2 (by decide +kernel) (by decide +kernel)).trans (by
    rw [show ((str " \n\t").length : Int) - 1 = 2 by decide +kernel]), (C73_iterateArray (str "{}") _ [] 0).2.1 (by decide +kernel) (by decide +kernel)⟩

/-! ### Empty arguments of the parser methods -/

/-- **C73** Parser methods with an empty path, key or value: the error, and the parser is left as
it is. -/
theorem C73_parser_empty (p : Parser) (v key : Bytes) (i : Int) (path : List Bytes) :
    p.Set v [] = .done p (some .nullPath) ∧ p.Delete [] = .done p (some .nullPath) ∧ p.SetKey key [] = .done p (some .nullPath) ∧
    (path ≠ [] → p.SetKey [] path = .done p (some .nullKey)) ∧ p.AddKeyValue [] v path = .done p (some .nullKey) ∧
    p.Add [] path = .done p (some .nullKey) ∧ p.Insert i [] path = .done p (some .nullKey) := by
  refine ⟨rfl, rfl, rfl, fun h => ?_, rfl, rfl, rfl⟩
  unfold Parser.SetKey
  rw [if_neg (by cases path <;> simp at h ⊢), if_pos (by simp)]

/-- **C73** `stripQuotes` takes off one pair of quotes and leaves anything else, a single quote
too. -/
theorem C73_stripQuotes (s : Bytes) : (∀ v, s = 34 :: (v ++ [34]) → stripQuotes s = v) ∧
    ((∀ v, s ≠ 34 :: (v ++ [34])) → stripQuotes s = s) := by
  refine ⟨?_, fun h => ?_⟩
  · rintro v rfl
    unfold stripQuotes
    rw [if_pos (by simp), if_pos (by simp [List.getLast?_cons])]
    simp
  · unfold stripQuotes
    split
    · split
      · rename_i h1 h2
        simp only [Bool.and_eq_true, beq_iff_eq] at h2
        cases s with
        | nil => simp at h1
        | cons x s =>
          cases hs : s.getLast? with
          | none => rw [List.getLast?_eq_none_iff] at hs; subst hs; simp at h1
          | some z =>
            obtain ⟨t, rfl⟩ := List.getLast?_eq_some_iff.1 hs
            have hx : x = 34 := by simpa using h2.1
            have hz : z = 34 := by simpa [List.getLast?_cons] using h2.2
            exact absurd (by rw [hx, hz]) (h t)
      · rfl
    · rfl

/-! ### The wrong kind of value -/

/-- What `containerSpan` and `bracketsAt` say at a value whose text, without the quotes of a
string, does not begin with `o` and end with `c`. -/
theorem span_refused {d : Doc} {p : List Text} {w : Json} (hd : d.wf) (h : d.get? p = some w) {o c : UInt8} (ho : o ≠ 34)
    (hf : w.first ≠ o) (hn : ¬ (w.content.head? = some o ∧ w.content.getLast? = some c)) (er : Err) :
    containerSpan d.render o c er p = .err er ∨
    ∃ a b, containerSpan d.render o c er p = .ok (a, b) ∧ bracketsAt d.render o c a b = .ok false := by
  obtain ⟨f, A, B, hfa, hv, hA, h1, h2, hw⟩ := doc_around hd h
  have hs : Seg d.render A.length w.render := by
    have := seg_self d.render
    conv at this => arg 3; rw [h1]
    rw [seg_append, seg_append] at this
    simpa using this.2.1
  by_cases hp : p = []
  · left
    subst hp
    simp only [findAt, Option.some.injEq] at hfa
    subst hfa
    simp only [Nat.add_zero] at hv hA
    have f1 : firstNS d.render 0 d.render.length = some A.length := by
      have hlt := lt_of_getElem? (hs.first hw)
      have := firstNS_ws (json := d.render) (hi := d.render.length) (i := 0) (w := d.lead) (c := w.first) (by simp [Seg, Doc.render])
        (doc_wf.1 hd).1 (by rw [Nat.zero_add, ← hA]; exact hs.first hw) (by rw [space_eq]; exact first_ns hw) (by omega)
      rw [this, hA]; simp
    have h0 : (w.first == o) = false := beq_eq_false_iff_ne.2 hf
    have hg := hs.first hw
    rw [containerSpan, if_pos (by simp), rootSpan, f1]
    simp only [hg]
    simp [h0]
  · right
    obtain ⟨hq, -⟩ := find_seg hp (doc_wf.1 hd).2.1 (doc_seg d) hfa
    refine ⟨(span (d.lead.length + f.pos) f.val).1, (span (d.lead.length + f.pos) f.val).2, ?_, ?_⟩
    · unfold containerSpan
      rw [if_neg (by simpa using hp), core_found hd hp hfa]
      rfl
    · rw [hv, ← hA]
      have key : ∃ x, d.render[(span A.length w).1]? = some x ∧ (x = o → 0 < (span A.length w).2 ∧
          ∃ y, d.render[(span A.length w).2 - 1]? = some y ∧ y ≠ c) := by
        cases w with
        | lit t => exact ⟨_, hs.first hw, fun e => absurd e hf⟩
        | arr g es => exact ⟨_, hs.first hw, fun e => absurd e hf⟩
        | obj g ms => exact ⟨_, hs.first hw, fun e => absurd e hf⟩
        | str raw =>
          rw [render_str, seg_cons] at hs
          simp only [span]
          cases raw with
          | nil => exact ⟨34, (seg_cons.1 hs.2).1, fun e => absurd e.symm ho⟩
          | cons x raw =>
            have hs2 := hs.2
            rw [List.cons_append, seg_cons] at hs2
            refine ⟨x, hs2.1, fun e => ⟨by omega, ?_⟩⟩
            have hl : (x :: raw).getLast? ≠ some c := fun hl => hn ⟨by simp [Json.content, e], by simpa [Json.content] using hl⟩
            rw [seg_append] at hs
            cases hy : (x :: raw).getLast? with
            | none => simp at hy
            | some y =>
              refine ⟨y, ?_, fun e => hl (by rw [hy, e])⟩
              rw [List.getLast?_eq_getElem?] at hy
              have := Seg.getElem? hs.2.1 hy
              rw [← this]
              congr 1
      obtain ⟨x, k1, k2⟩ := key
      unfold bracketsAt
      rw [idx_nat k1]
      by_cases hx : x = o
      · obtain ⟨k3, y, k4, k5⟩ := k2 hx
        subst hx
        simp only [Out.bind_ok, beq_self_eq_true, if_true]
        rw [idx_pred k3 k4]
        simp [k5]
      · simp [hx]

theorem doc_len {d : Doc} {p : List Text} {w : Json} (hd : d.wf) (h : d.get? p = some w) (hp : p ≠ []) : ¬ d.render.length < 2 := by
  obtain ⟨f, hf, -, -, -⟩ := find_any hd h
  have hc : ∃ l, core d.render false p = .ok l := ⟨_, core_found hd hp hf false⟩
  obtain ⟨l, hc⟩ := hc
  intro hl
  unfold core at hc
  rw [if_pos hl] at hc
  cases hc

/-- **C74 (partial)** `Add` and `Insert` at a value that is no array, `AddKeyValue` at a value that
is no object: the error, and the text unchanged.  Missing: strings whose content begins and ends
with the brackets, which are taken for containers (`C74_fails`). -/
theorem C74_wrong_kind_partial (d : Doc) (p : List Text) (w : Json) (hd : d.wf) (h : d.get? p = some w) (hl : p ≠ [] ∨ 2 ≤ d.render.length) :
    (w.kind ≠ .arr → (∀ raw, w = .str raw → ¬ (raw.head? = some 91 ∧ raw.getLast? = some 93)) → ∀ v i,
      Add d.render v p = .done d.render (some .arrayExpected) ∧ Insert d.render i v p = .done d.render (some .arrayExpected)) ∧
    (w.kind ≠ .obj → (∀ raw, w = .str raw → ¬ (raw.head? = some 123 ∧ raw.getLast? = some 125)) → ∀ k v,
      AddKeyValue d.render k v p = .done d.render (some .objectExpected)) := by
  have hlen : ¬ d.render.length < 2 := hl.elim (doc_len hd h) fun h => by omega
  obtain ⟨f, A, B, hfa, hv, hA, h1, h2, hw⟩ := doc_around hd h
  have ktok : ∀ t, (Json.lit t).wf → ∀ o, tokByte o = false → (Json.lit t).content.head? ≠ some o ∧ (Json.lit t).first ≠ o := by
    intro t ht o ho
    have := first_lit ht
    cases t with
    | nil => simp [Json.wf] at ht
    | cons x t =>
      have hx : x ≠ o := by
        rintro rfl
        rw [show (Json.lit (x :: t)).first = x from rfl, ho] at this; cases this
      exact ⟨by simpa [Json.content, Json.render] using hx, hx⟩
  refine ⟨fun hk hs v i => ?_, fun hk hs k v => ?_⟩
  · have := span_refused hd h (o := 91) (c := 93) (by decide) (er := .arrayExpected)
      (by cases w with
          | lit t => exact (ktok t hw 91 (by decide)).2
          | str raw => rw [first_str]; decide
          | arr g es => exact absurd rfl hk
          | obj g ms => rw [first_obj]; decide)
      (by cases w with
          | lit t => exact fun hc => (ktok t hw 91 (by decide)).1 hc.1
          | str raw => exact hs raw rfl
          | arr g es => exact absurd rfl hk
          | obj g ms => intro hc; have := hc.1; simp [Json.content, render_obj] at this)
    unfold Add Insert
    rw [if_neg hlen]
    rcases this with e | ⟨a, b, e1, e2⟩
    · rw [e]; exact ⟨rfl, rfl⟩
    · rw [e1]
      simp only [Mut.bindOut, e2]
      exact ⟨rfl, rfl⟩
  · have := span_refused hd h (o := 123) (c := 125) (by decide) (er := .objectExpected)
      (by cases w with
          | lit t => exact (ktok t hw 123 (by decide)).2
          | str raw => rw [first_str]; decide
          | obj g ms => exact absurd rfl hk
          | arr g es => rw [first_arr]; decide)
      (by cases w with
          | lit t => exact fun hc => (ktok t hw 123 (by decide)).1 hc.1
          | str raw => exact hs raw rfl
          | obj g ms => exact absurd rfl hk
          | arr g es => intro hc; have := hc.1; simp [Json.content, render_arr] at this)
    have key : ∀ v, addKeyValue d.render k v p = .done d.render (some .objectExpected) := by
      intro v
      unfold addKeyValue
      rw [if_neg hlen]
      rcases this with e | ⟨a, b, e1, e2⟩
      · rw [e]; rfl
      · rw [e1]
        simp only [Mut.bindOut, e2]
        rfl
    cases v <;> exact key _

example : Sample.doc.get? Sample.toObj ≠ none ∧ Add Sample.doc.render (str "1") Sample.toObj = .done Sample.doc.render (some .arrayExpected) ∧
    AddKeyValue Sample.doc.render (str "k") none Sample.toStr = .done Sample.doc.render (some .objectExpected) := by decide +kernel

/-- **C74 is false** for strings that look like containers: the text inside the quotes is
changed. -/
theorem C74_fails : Add (str "{\"a\":\"[1]\"}") (str "2") [str "a"] = .done (str "{\"a\":\"[1,2]\"}") none ∧
    AddKeyValue (str "{\"a\":\"{}\"}") (str "b") none [str "a"] = .done (str "{\"a\":\"{\"b\":null}\"}") none := by decide +kernel

end Jin
