import Verif.Proof.Layout
/-!
# Proof.MissArr — an index that leads nowhere
-/

namespace Jin
open Spec

section
variable {json : Bytes} {path : List Bytes} {k : Nat} {ai : Int}

/-- The elements are passed over when none of them has the index looked for. -/
theorem arr_pass : ∀ (es : List (Elem Json)) {i : Nat} {a : ArrSt}, es ≠ [] →
    wfElems es → Seg json i (renderElems es) → PrevOk json i →
    a.level = 1 → a.inQuote = false → a.found = false → (ai ≤ a.indexCount ∨ a.indexCount + es.length ≤ ai) →
    ∃ n, Run json (arrBody json path k ai) i a (i + (renderElems es).length) { a with indexCount := n }
  | [], i, a, h, _, _, _, _, _, _, _ => absurd rfl h
  | e :: es, i, a, _, hw, hs, hp, hl, hq, hf, hai => by
    rw [renderElems_cons] at hs ⊢
    rw [seg_append, seg_append, seg_append] at hs
    obtain ⟨h1, h2, h3, h4⟩ := hs
    rw [wfElems_cons] at hw
    obtain ⟨s, hr, hs⟩ := elem_run (arr_skips (json := json) (path := path) (k := k) (ai := ai) a hq hf
      (by omega)) (d := 0) hw.1 hw.2.1 hw.2.2.1 h1 h2 h3 hp rfl
    subst hs
    by_cases he : es = []
    · subst he
      exact ⟨a.indexCount, Run.to hr (by simp; omega)⟩
    · rw [if_neg (by simpa using he), seg_cons] at h4
      have hne : 0 < es.length := List.length_pos_iff.2 he
      simp only [List.length_cons] at hai
      have hb : Run json (arrBody json path k ai) _ a _ { a with indexCount := a.indexCount + 1 } :=
        Run.next h4.1 (by
          have : ¬ (a.indexCount + 1 = ai) := by omega
          simp [arrBody, h4.1, isJSONChar, hq, hf, hl, this])
      obtain ⟨n, hr2⟩ := arr_pass es (a := { a with indexCount := a.indexCount + 1 }) he hw.2.2.2 h4.2
        (prevOk_succ h4.1 (by decide)) hl hq hf (by simp only; omega)
      exact ⟨n, Run.to ((Run.trans hr hb).trans hr2) (by simp [he]; omega)⟩

/-- Search for an index other than 0 that the array does not have. -/
theorem arr_miss {g : Text} {es : List (Elem Json)} {i : Nat} {br : UInt8} {cur : Bytes}
    (hw : (Json.arr g es).wf) (hs : Seg json i (Json.arr g es).render) (hai : ai < 0 ∨ (es.length : Int) ≤ ai) (h0 : ai ≠ 0) :
    forUp json.length (arrBody json path k ai) i ⟨0, false, false, 0, i, br, cur⟩ = .ret (.err .indexOutOfRange) := by
  rw [render_arr, seg_cons, seg_append, seg_cons] at hs
  obtain ⟨h1, h2, h3, -⟩ := hs
  rw [wf_arr] at hw
  rw [forUp_next (s' := ⟨1, false, false, 0, i, br, cur⟩) (lt_of_getElem? h1) (by simp [arrBody, h1, isJSONChar])]
  have : ∃ n, Run json (arrBody json path k ai) (i + 1) ⟨1, false, false, 0, i, br, cur⟩
      (i + 1 + (if es.isEmpty then g else renderElems es).length) ⟨1, false, false, n, i, br, cur⟩ := by
    by_cases he : es = []
    · subst he
      exact ⟨0, arr_ws hw.1 h2⟩
    · rw [if_neg (by simpa using he)] at h2 ⊢
      obtain ⟨n, hn⟩ := arr_pass (path := path) (k := k) (ai := ai) es (a := ⟨1, false, false, 0, i, br, cur⟩) he hw.2 h2
        (prevOk_succ h1 (by decide)) rfl rfl rfl (by simp only; omega)
      exact ⟨n, hn⟩
  obtain ⟨n, hn⟩ := this
  rw [hn]
  clear hn
  generalize i + 1 + List.length (if es.isEmpty then g else renderElems es) = j at h3
  exact forUp_ret (lt_of_getElem? h3) (by simp [arrBody, h3, isJSONChar])

/-- Whitespace in front of the first element. -/
theorem zero_ws {w : Bytes} {z : ZeroSt} : ∀ {j : Nat}, Ws w → Seg json j w →
    Run json (zeroBody json path k) j z (j + w.length) z := by
  induction w with
  | nil => intro j _ _; exact Run.refl
  | cons b w ih =>
    intro j hw hs
    rw [seg_cons] at hs
    rw [ws_cons, Bool.and_eq_true] at hw
    have h1 : Run json (zeroBody json path k) j z (j + 1) z :=
      Run.next hs.1 (by simp [zeroBody, hs.1, space_eq, hw.1])
    exact (h1.trans (ih hw.2 hs.2)).to (by simp; omega)

/-- Index 0 of an empty array. -/
theorem zero_miss {g : Text} {i : Nat} {br : UInt8} {cur : Bytes}
    (hw : (Json.arr g []).wf) (hs : Seg json i (Json.arr g []).render) :
    forUp json.length (zeroBody json path k) (i + 1) ⟨i + 1, br, cur⟩ =
      if k + 1 = path.length then .done ⟨i + 1, br, cur⟩ else .ret (.err .indexOutOfRange) := by
  rw [render_arr, seg_cons, seg_append, seg_cons] at hs
  obtain ⟨h1, h2, h3, -⟩ := hs
  simp only [List.isEmpty_nil, if_true] at h2 h3
  rw [wf_arr] at hw
  rw [zero_ws hw.1 h2]
  split
  · exact forUp_brk (lt_of_getElem? h3) (by simp [zeroBody, *]; decide)
  · rename_i hk
    exact forUp_ret (lt_of_getElem? h3) (by simp [zeroBody, h3, hk]; decide)

end

theorem readIndex_none {q : Bytes} {n : Int} (h : readInt q = some n) {es : List (Elem Json)}
    (hn : n < 0 ∨ (es.length : Int) ≤ n) : (readIndex q).filter (· < es.length) = none := by
  unfold readIndex
  rw [h]
  cases n with
  | ofNat m => simp at hn ⊢; omega
  | negSucc m => rfl

/-- The container a path (possibly empty) leads to. -/
theorem find_any_open {d : Doc} {p : List Text} {w : Json} (hd : d.opens) (h : d.get? p = some w) :
    ∃ f, findAt d.root p = some f ∧ f.val = w ∧ Seg d.render (d.lead.length + f.pos) w.render ∧ w.wf := by
  obtain ⟨f, hf, rfl⟩ := findAt_of_get h
  refine ⟨f, hf, rfl, ?_⟩
  by_cases hp : p = []
  · subst hp
    simp only [findAt, Option.some.injEq] at hf
    subst hf
    exact ⟨doc_seg d, hd.2⟩
  · obtain ⟨h1, h2, -⟩ := find_seg hp hd.2 (doc_seg d) hf
    exact ⟨h1, h2⟩

theorem find_any {d : Doc} {p : List Text} {w : Json} (hd : d.wf) (h : d.get? p = some w) :
    ∃ f, findAt d.root p = some f ∧ f.val = w ∧ Seg d.render (d.lead.length + f.pos) w.render ∧ w.wf :=
  find_any_open (opens_of_wf hd) h

/-- `core` at an array: the entry is not an integer. -/
theorem core_index_expected_open {d : Doc} {pre : List Bytes} {q : Bytes} {qs : List Bytes} {f : Found} {g : Text} {es : List (Elem Json)} (hd : d.opens)
    (hf : findAt d.root pre = some f) (hv : f.val = .arr g es) (hq : readInt q = none) (js : Bool) :
    core d.render js (pre ++ q :: qs) = .err .indexExpected := by
  obtain ⟨res, hat, hc⟩ := core_at_open (q := q) (qs := qs) hd hf (by rw [hv]; rfl)
  rw [hc]
  cases hat with
  | obj hv' => rw [hv] at hv'; cases hv'
  | @arr g es fuel s hv' hr hk ho hb hc hks hfuel =>
    rw [hr, coreLoop, if_pos (by simp [hk]), coreStep, if_pos (by simp [hb]), hc, atoi_eq, hq]
    rfl

theorem core_index_expected {d : Doc} {pre : List Bytes} {q : Bytes} {qs : List Bytes} {f : Found} {g : Text} {es : List (Elem Json)} (hd : d.wf)
    (hf : findAt d.root pre = some f) (hv : f.val = .arr g es) (hq : readInt q = none) (js : Bool) :
    core d.render js (pre ++ q :: qs) = .err .indexExpected :=
  core_index_expected_open (opens_of_wf hd) hf hv hq js

/-- `core` at an array: the index is out of range. -/
theorem core_index_range_open {d : Doc} {pre : List Bytes} {q : Bytes} {qs : List Bytes} {f : Found} {g : Text} {es : List (Elem Json)} (hd : d.opens)
    (hf : findAt d.root pre = some f) (hv : f.val = .arr g es) (hsf : Seg d.render (d.lead.length + f.pos) f.val.render)
    (hwf : f.val.wf) {n : Int} (hq : readInt q = some n) (hn : n < 0 ∨ (es.length : Int) ≤ n) :
    core d.render false (pre ++ q :: qs) = .err (if n = 0 ∧ qs = [] then .emptyArray else .indexOutOfRange) := by
  obtain ⟨res, hat, hc⟩ := core_at_open (q := q) (qs := qs) hd hf (by rw [hv]; rfl)
  rw [hc]
  cases hat with
  | obj hv' => rw [hv] at hv'; cases hv'
  | @arr g' es' fuel s hv' hr hk ho hb hc hks hfuel =>
    obtain ⟨rfl, rfl⟩ := Json.arr.inj (hv.symm.trans hv')
    rw [hv] at hsf hwf
    have hlen : (pre ++ q :: qs).length = pre.length + (qs.length + 1) := by simp
    rw [hr, coreLoop, if_pos (by simp [hk]), coreStep, if_pos (by simp [hb]), hc, atoi_eq, hq]
    by_cases h0 : n = 0
    · subst h0
      have he : es = [] := by rw [← List.length_eq_zero_iff]; omega
      subst he
      simp only [beq_self_eq_true, if_true]
      rw [ho, zero_miss hwf hsf, hlen, hk]
      by_cases hqs : qs = []
      · subst hqs
        simp only [List.length_nil, Nat.zero_add, if_true, and_self]
        rw [show coreLoop d.render (pre ++ [q]) fuel ⟨pre.length + 1, d.lead.length + f.pos + 1, s.brace, q, s.keyStart⟩ =
          .done ⟨pre.length + 1, d.lead.length + f.pos + 1, s.brace, q, s.keyStart⟩ by
            cases fuel with
            | zero => rw [coreLoop]
            | succ fuel => rw [coreLoop, if_neg (by simp)]]
        rw [render_arr, seg_cons, seg_append, seg_cons] at hsf
        obtain ⟨h1, h2, h3, -⟩ := hsf
        simp only [List.isEmpty_nil, if_true] at h2 h3
        rw [wf_arr] at hwf
        simp only [coreEnd, coreTail, skipSpaces_ws h2 hwf.1 h3 (by decide), h3]
        rw [if_neg (by simp)]
        simp only [Bool.false_eq_true, if_false, extent]
        rw [if_neg (by decide), if_neg (by decide), forUp_ret (lt_of_getElem? h3) (by simp [plainBody, h3]; rfl)]
      · have : ¬ (pre.length + 1 = pre.length + (qs.length + 1)) := by
          have := List.length_pos_iff.2 hqs; omega
        rw [if_neg this]
        simp [coreEnd, hqs]
    · simp only [beq_eq_false_iff_ne.2 h0, Bool.false_eq_true, if_false]
      rw [ho, arr_miss hwf hsf hn h0]
      simp [coreEnd, h0]

theorem core_index_range {d : Doc} {pre : List Bytes} {q : Bytes} {qs : List Bytes} {f : Found} {g : Text} {es : List (Elem Json)} (hd : d.wf)
    (hf : findAt d.root pre = some f) (hv : f.val = .arr g es) (hsf : Seg d.render (d.lead.length + f.pos) f.val.render)
    (hwf : f.val.wf) {n : Int} (hq : readInt q = some n) (hn : n < 0 ∨ (es.length : Int) ≤ n) :
    core d.render false (pre ++ q :: qs) = .err (if n = 0 ∧ qs = [] then .emptyArray else .indexOutOfRange) :=
  core_index_range_open (opens_of_wf hd) hf hv hsf hwf hq hn

end Jin
