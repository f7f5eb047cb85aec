import Verif.Proof.Fresh
import Verif.Props.Sample
import Verif.Proof.AddIns
/-!
# Props.Add — C20–C23, C29: `Add`, `AddKeyValue`, `Insert`
-/

namespace Jin
open Spec

theorem get_added {w w' : Json} {x : Entry} (hk : w'.kind = w.kind) (he : w'.entries = w.entries ++ [x]) {r : Text} {rest : List Text} {v : Json}
    (h : w.get? (r :: rest) = some v) : w'.get? (r :: rest) = some v := by
  rw [get_cons_eq, Option.bind_eq_some_iff] at h ⊢
  obtain ⟨n, hn, h⟩ := h
  have hlt := slot_lt hn
  refine ⟨n, ?_, by rw [he, List.getElem?_append_left hlt]; exact h⟩
  cases hkw : w.kind with
  | scalar => cases w <;> simp [Json.kind] at hkw <;> simp [Json.slot?] at hn
  | arr =>
    rw [slot_arr hkw, Option.filter_eq_some_iff] at hn
    rw [slot_arr (hk.trans hkw), Option.filter_eq_some_iff]
    refine ⟨hn.1, ?_⟩
    rw [he]; simp; omega
  | obj =>
    rw [slot_obj hkw] at hn
    rw [slot_obj (hk.trans hkw), he, List.findIdx?_append, hn]
    rfl

theorem memberIdx_absent {ms : List (Member Json)} {k : Text} (h : ∀ m ∈ ms, m.key ≠ k) : memberIdx ms k = none := by
  unfold memberIdx
  rw [List.findIdx?_eq_none_iff]
  intro m hm
  simpa using h m hm

/-- The added entry is found under its index or key. -/
theorem slot_added_arr {w w' : Json} {x : Entry} (hkw : w.kind = .arr) (hk : w'.kind = w.kind) (he : w'.entries = w.entries ++ [x]) {q : Text}
    (hq : readIndex q = some w.entries.length) : w'.slot? q = some w.entries.length := by
  rw [slot_arr (hk.trans hkw), he, hq]; simp

theorem slot_added_obj {w' : Json} {g k m l2 : Text} {ms : List (Member Json)} {v : Json} (hk : w'.kind = .obj)
    (he : w'.entries = (Json.obj g ms).entries ++ [.member k m l2 v]) (hq : ∀ m ∈ ms, m.key ≠ k) : w'.slot? k = some ms.length := by
  have h0 : (Json.obj g ms).slot? k = none := memberIdx_absent hq
  rw [slot_obj (w := .obj g ms) rfl] at h0
  rw [slot_obj hk, he, List.findIdx?_append, h0]
  simp [Json.entries, Entry.key]

/-- **C20** `Add` at an array of `n` elements: the result is the text of a well-formed document
that has in place of the array an array with the same elements, each with its own text,
and the value after them.  Every path into the array and every path that diverges from it
gives the same bytes as before, and the index `n` gives the value. -/
theorem C20_add (d : Doc) (p : List Text) (g : Text) (es : List (Elem Json)) (v : Json) (hd : d.wf)
    (h : d.get? p = some (.arr g es)) (hv : v.wf) :
    ∃ w', Add d.render v.render p = .done (d.set p w').render none ∧ (d.set p w').wf ∧
      w'.kind = .arr ∧ w'.entries = (Json.arr g es).entries ++ [.elem v] ∧
      (∀ q, readIndex q = some es.length → Get (d.set p w').render (p ++ [q]) = .ok v.content) ∧
      (∀ r rest u, d.get? (p ++ r :: rest) = some u → Get (d.set p w').render (p ++ r :: rest) = Get d.render (p ++ r :: rest)) ∧
      (∀ q u, d.diverge p q → d.get? q = some u → Get (d.set p w').render q = Get d.render q) := by
  have hw : (Json.arr g es).wf := get_wf p (doc_wf.1 hd).2.1 h
  obtain ⟨a1, a2, a3⟩ := addEnt_ok hw rfl (x := .elem v) (by rfl) hv
  have hd' : (d.set p (addEnt (.arr g es) (.elem v))).wf := doc_upd_wf (f := fun _ => addEnt (.arr g es) (.elem v)) hd h a1
  have hg : (d.set p (addEnt (.arr g es) (.elem v))).get? p = some (addEnt (.arr g es) (.elem v)) := get_upd p h (fun _ => _)
  refine ⟨_, add_ok hd h v, hd', a2, a3, ?_, ?_, ?_⟩
  · intro q hq
    refine get_ok hd' (by simp) ?_
    unfold Doc.get? at hg ⊢
    rw [get_append, hg, Option.bind_some, get_cons_eq, slot_added_arr rfl a2 a3 (by simpa [Json.entries] using hq), Option.bind_some, a3]
    simp [Entry.val, Json.get?]
  · intro r rest u hu
    rw [get_ok hd (by simp) hu]
    refine get_ok hd' (by simp) ?_
    unfold Doc.get? at hg h hu ⊢
    rw [get_append, h, Option.bind_some] at hu
    rw [get_append, hg, Option.bind_some]
    exact get_added a2 a3 hu
  · intro q u hdv hu
    have hne : q ≠ [] := by rintro rfl; cases p <;> simp [Doc.diverge, Json.diverge] at hdv
    rw [get_ok hd hne hu]
    refine get_ok hd' hne ?_
    rw [← hu]
    exact get_upd_diverge p hdv _

/-- Appending to a filled array, to an empty one, and at the root. -/
example : Add Sample.doc.render (str "{\"n\":[0]}") Sample.toArr =
      .done (str "\n{\"a\": 1, \"b\\\"]\" :[ 10 ,\"x]\\\\\" , {\"k\":null}, [] ,{\"n\":[0]}],\"a\":2,\"o\":{ \"p\":{\"q\":true }, \"r\":-1.5e3}} ") none ∧
    Add Sample.doc.render (str "7") (Sample.toArr ++ [str "3"]) =
      .done (str "\n{\"a\": 1, \"b\\\"]\" :[ 10 ,\"x]\\\\\" , {\"k\":null}, [7] ],\"a\":2,\"o\":{ \"p\":{\"q\":true }, \"r\":-1.5e3}} ") none ∧
    Add (str " [1] ") (str "2") [] = .done (str " [1,2] ") none := by decide +kernel

example : ∃ json, Add Sample.doc.render (Json.str (str "new")).render Sample.toArr = .done json none ∧
    Get json (Sample.toArr ++ [str "4"]) = .ok (str "new") ∧ Get json Sample.toStr = .ok (str "x]\\\\") := by
  obtain ⟨w', h1, -, -, -, h2, h3, -⟩ := C20_add Sample.doc Sample.toArr [] [⟨str " ", .lit (str "10"), str " "⟩,
    ⟨[], .str (str "x]\\\\"), str " "⟩, ⟨str " ", .obj [] [Sample.mem (str "k") (.lit (str "null"))], []⟩,
    ⟨str " ", .arr [] [], str " "⟩] (.str (str "new")) Sample.doc_wf (by decide +kernel) (by decide +kernel)
  refine ⟨_, h1, h2 (str "4") (by decide +kernel), ?_⟩
  have := h3 (str "1") [] _ Sample.get_str
  rw [show Sample.toStr = Sample.toArr ++ [str "1"] from rfl, this]
  exact get_ok Sample.doc_wf (by decide) Sample.get_str

/-- What a successful `AddKeyValue` with an absent key is. -/
theorem addkv_result {d : Doc} {p : List Text} {g : Text} {ms : List (Member Json)} {k : Text} {v : Json} (hd : d.wf)
    (h : d.get? p = some (.obj g ms)) (hk : ∀ m ∈ ms, m.key ≠ k) (hks : strOk k) (hv : v.wf)
    (hc : ms = [] ∨ ∃ e, core d.render false (p ++ [k]) = .err e ∧ errEqual (some e) codeKeyNotFound = true) :
    ∃ w', AddKeyValue d.render k (some v.render) p = .done (d.set p w').render none ∧ (d.set p w').wf ∧
      w'.kind = .obj ∧ w'.entries = (Json.obj g ms).entries ++ [.member k [] [] v] ∧
      Get (d.set p w').render (p ++ [k]) = .ok v.content ∧
      (∀ r rest u, d.get? (p ++ r :: rest) = some u → Get (d.set p w').render (p ++ r :: rest) = Get d.render (p ++ r :: rest)) ∧
      (∀ q u, d.diverge p q → d.get? q = some u → Get (d.set p w').render q = Get d.render q) ∧
      Delete (d.set p w').render (p ++ [k]) = .done d.render none := by
  have hw : (Json.obj g ms).wf := get_wf p (doc_wf.1 hd).2.1 h
  have hxo : (Entry.member k [] [] v).ok := ⟨hks, rfl, rfl, hv⟩
  obtain ⟨a1, a2, a3⟩ := addEnt_ok hw rfl (x := .member k [] [] v) (by rfl) hxo
  have hd' : (d.set p (addEnt (.obj g ms) (.member k [] [] v))).wf := doc_upd_wf (f := fun _ => addEnt (.obj g ms) (.member k [] [] v)) hd h a1
  have hg : (d.set p (addEnt (.obj g ms) (.member k [] [] v))).get? p = some (addEnt (.obj g ms) (.member k [] [] v)) := get_upd p h (fun _ => _)
  have hsl := slot_added_obj a2 a3 hk
  refine ⟨_, addkv_ok hd h hc v, hd', a2, a3, ?_, ?_, ?_, ?_⟩
  · refine get_ok hd' (by simp) ?_
    unfold Doc.get? at hg ⊢
    rw [get_append, hg, Option.bind_some, get_cons_eq, hsl, Option.bind_some, a3]
    simp [Entry.val, Json.get?, Json.entries]
  · intro r rest u hu
    rw [get_ok hd (by simp) hu]
    refine get_ok hd' (by simp) ?_
    unfold Doc.get? at hg h hu ⊢
    rw [get_append, h, Option.bind_some] at hu
    rw [get_append, hg, Option.bind_some]
    exact get_added a2 a3 hu
  · intro q u hdv hu
    have hne : q ≠ [] := by rintro rfl; cases p <;> simp [Doc.diverge, Json.diverge] at hdv
    rw [get_ok hd hne hu]
    refine get_ok hd' hne ?_
    rw [← hu]
    exact get_upd_diverge p hdv _
  · exact delete_added hd h rfl (by rfl) hxo (by simpa [Json.entries] using hsl)

/-- **C21 (partial)** `AddKeyValue` at an object without the key: the result is the text of a
well-formed document that has in place of the object an object with the same members, each
with its own text, and the new one after them; `Get` of the key gives the value, and every
path into the object or away from it gives the same bytes as before.  Missing: objects in
surroundings that violate `Doc.clear`, where the key may be found in later text and the
call refused (`C21_fails`); an empty object needs no condition. -/
theorem C21_addKeyValue_partial (d : Doc) (p : List Text) (g : Text) (ms : List (Member Json)) (k : Text) (v : Json) (hd : d.wf)
    (h : d.get? p = some (.obj g ms)) (hk : ∀ m ∈ ms, m.key ≠ k) (hks : strOk k) (hv : v.wf) (hok : ms = [] ∨ d.clear p k) :
    ∃ w', AddKeyValue d.render k (some v.render) p = .done (d.set p w').render none ∧ (d.set p w').wf ∧
      w'.kind = .obj ∧ w'.entries = (Json.obj g ms).entries ++ [.member k [] [] v] ∧
      Get (d.set p w').render (p ++ [k]) = .ok v.content ∧
      (∀ r rest u, d.get? (p ++ r :: rest) = some u → Get (d.set p w').render (p ++ r :: rest) = Get d.render (p ++ r :: rest)) ∧
      (∀ q u, d.diverge p q → d.get? q = some u → Get (d.set p w').render q = Get d.render q) := by
  obtain ⟨w', h1, h2, h3, h4, h5, h6, h7, -⟩ := addkv_result hd h hk hks hv
    (hok.imp id fun hok => ⟨_, core_clear hd h (memberIdx_absent hk) hok _, errEqual_keyNotFound k⟩)
  exact ⟨w', h1, h2, h3, h4, h5, h6, h7⟩

/-- **C21, the general case**: with any surroundings, `AddKeyValue` of an absent key either
does all of the above or returns an error and the text unchanged. -/
theorem C21_all_or_nothing_partial (d : Doc) (p : List Text) (g : Text) (ms : List (Member Json)) (k : Text) (v : Json) (hd : d.wf)
    (h : d.get? p = some (.obj g ms)) (hk : ∀ m ∈ ms, m.key ≠ k) (hks : strOk k) (hv : v.wf) (json : Bytes) (er : Option Err)
    (ha : AddKeyValue d.render k (some v.render) p = .done json er) :
    (er ≠ none ∧ json = d.render) ∨
    (er = none ∧ ∃ w', json = (d.set p w').render ∧ (d.set p w').wf ∧
      w'.kind = .obj ∧ w'.entries = (Json.obj g ms).entries ++ [.member k [] [] v] ∧
      Get json (p ++ [k]) = .ok v.content) := by
  rcases addkv_done hd h ha with ⟨rfl, hc⟩ | ⟨e, rfl, rfl⟩
  · obtain ⟨w', h1, h2, h3, h4, h5, -⟩ := addkv_result hd h hk hks hv hc
    rw [h1] at ha
    simp only [Mut.done.injEq, and_true] at ha
    exact Or.inr ⟨rfl, w', ha.symm, h2, h3, h4, ha ▸ h5⟩
  · exact Or.inl ⟨by simp, rfl⟩

/-- Appending to an object below, at the root, and to an empty one. -/
example : AddKeyValue Sample.doc.render (str "z\\\"") (some (str "[]")) Sample.toObj =
      .done (str "\n{\"a\": 1, \"b\\\"]\" :[ 10 ,\"x]\\\\\" , {\"k\":null}, [] ],\"a\":2,\"o\":{ \"p\":{\"q\":true }, \"r\":-1.5e3,\"z\\\"\":[]}} ") none ∧
    AddKeyValue Sample.doc.render (str "z") none [] =
      .done (str "\n{\"a\": 1, \"b\\\"]\" :[ 10 ,\"x]\\\\\" , {\"k\":null}, [] ],\"a\":2,\"o\":{ \"p\":{\"q\":true }, \"r\":-1.5e3},\"z\":null} ") none ∧
    AddKeyValue (str "{\"a\":{ }}") (str "k") (some (str "1")) [str "a"] = .done (str "{\"a\":{ \"k\":1}}") none := by decide +kernel

example : ∃ json, AddKeyValue Sample.doc.render (str "q") (some (Json.arr [] []).render) Sample.toObj = .done json none ∧
    Get json (Sample.toObj ++ [str "q"]) = .ok (str "[]") ∧ Get json (Sample.toObj ++ [str "p", str "q"]) = .ok (str "true") := by
  obtain ⟨w', h1, -, -, -, h2, h3, -⟩ := C21_addKeyValue_partial Sample.doc Sample.toObj [] [⟨str " ", str "p", [], [], .obj [] [⟨[], str "q", [], [], .lit (str "true"), str " "⟩], []⟩,
        ⟨str " ", str "r", [], [], .lit (str "-1.5e3"), []⟩] (str "q") (.arr [] []) Sample.doc_wf (by decide +kernel) (by decide +kernel)
        (by decide +kernel) (by decide +kernel) (Or.inr (.inl (by decide +kernel)))
  refine ⟨_, h1, h2.trans (by decide +kernel), ?_⟩
  rw [h3 (str "p") [str "q"] _ Sample.get_true]
  exact (get_ok Sample.doc_wf (by decide) Sample.get_true).trans (by decide +kernel)

/-- **C21 is false in general**: `a` has no key `z`, but adding it is refused. -/
theorem C21_fails : AddKeyValue (str "{\"a\":{\"x\":1},\"b\":{\"y\":2,\"z\":3}}") (str "z") (some (str "0")) [str "a"] =
    .done (str "{\"a\":{\"x\":1},\"b\":{\"y\":2,\"z\":3}}") (some (.keyAlreadyExist (str "z"))) := by decide +kernel

/-- **C22** `AddKeyValue` with a key the object has (once or more often) reports it and returns
the text unchanged. -/
theorem C22_addKeyValue_exists (d : Doc) (p : List Text) (g : Text) (ms : List (Member Json)) (k : Text) (v : Option Bytes) (hd : d.wf)
    (h : d.get? p = some (.obj g ms)) (hk : ∃ m ∈ ms, m.key = k) :
    AddKeyValue d.render k v p = .done d.render (some (.keyAlreadyExist k)) := by
  obtain ⟨A, B, h1, -, hw, h3, h4, -⟩ := containerSpan_ok hd h rfl .objectExpected
  have hs : Seg d.render A.length (Json.obj g ms).render := by
    have := seg_self d.render
    conv at this => arg 3; rw [h1]
    rw [seg_append, seg_append] at this; simpa using this.2.1
  have hne : ms ≠ [] := by rintro rfl; simp at hk
  obtain ⟨j, hj⟩ := (inner_first hw rfl hs).2 (by simpa [ents] using hne)
  have hn : ∃ n, memberIdx ms k = some n := by
    obtain ⟨m, hm, hk⟩ := hk
    cases hi : memberIdx ms k with
    | some n => exact ⟨n, rfl⟩
    | none => exact absurd hk (memberIdx_none hi m hm)
  obtain ⟨n, hn⟩ := hn
  have hget : ∃ c, d.get? (p ++ [k]) = some c := by
    unfold Doc.get? at h ⊢
    have hlt := slot_lt (w := .obj g ms) (q := k) (n := n) hn
    rw [get_append, h, Option.bind_some, get_cons_eq, show (Json.obj g ms).slot? k = some n from hn, Option.bind_some,
      List.getElem?_eq_getElem hlt]
    exact ⟨_, rfl⟩
  obtain ⟨c, hget⟩ := hget
  obtain ⟨f, hf, -⟩ := findAt_of_get hget
  have key : ∀ t, addKeyValue d.render k t p = .done d.render (some (.keyAlreadyExist k)) := by
    intro t
    unfold addKeyValue
    rw [if_neg (by rw [h1]; exact len_ge rfl)]
    simp only [opnOf, clsOf] at h3 h4
    rw [h3]
    simp only [Mut.bindOut, h4, if_true, hj, core_found hd (by simp) hf]
  cases v <;> exact key _

example : AddKeyValue Sample.doc.render (str "a") (some (str "5")) [] = .done Sample.doc.render (some (.keyAlreadyExist (str "a"))) :=
  C22_addKeyValue_exists Sample.doc [] _ _ (str "a") _ Sample.doc_wf rfl ⟨Sample.mem (str "a") (.lit (str "2")), by simp [Sample.rootMembers], rfl⟩

/-- **C23 (partial)** `Insert` before element `n`: the result is the text of a well-formed document
that has in place of the array an array with the same elements and the value as element
`n`.  Missing: an insertion before the last element of several when whitespace precedes
that element; the result is then not JSON (`C23_fails`). -/
theorem C23_insert_partial (d : Doc) (p : List Text) (g : Text) (es : List (Elem Json)) (n : Nat) (v : Json) (hd : d.wf)
    (h : d.get? p = some (.arr g es)) (hn : n < es.length) (hb : (n : Int) ≤ 9223372036854775807) (hv : v.wf)
    (hok : n + 1 < es.length ∨ n = 0 ∨ ∃ e, es[n]? = some e ∧ e.l = []) :
    ∃ w', Insert d.render n v.render p = .done (d.set p w').render none ∧ (d.set p w').wf ∧
      w'.kind = .arr ∧ w'.entries = (Json.arr g es).entries.take n ++ .elem v :: (Json.arr g es).entries.drop n ∧
      (∀ q, readIndex q = some n → Get (d.set p w').render (p ++ [q]) = .ok v.content) ∧
      (∀ r r' j rest u, readIndex r = some j → readIndex r' = some (if j < n then j else j + 1) →
        d.get? (p ++ r :: rest) = some u → Get (d.set p w').render (p ++ r' :: rest) = Get d.render (p ++ r :: rest)) ∧
      (∀ q u, d.diverge p q → d.get? q = some u → Get (d.set p w').render q = Get d.render q) := by
  obtain ⟨xs, e, ys, h1, h2, hw, h3⟩ := insert_ok hd h hn hb hok v
  have hall := rents_all (w := .arr g es) rfl hw
  rw [h1] at hall
  have hwe := hall e (by simp)
  have hg0 : Ws g := (wf_arr.1 hw).1
  obtain ⟨a1, a2, a3⟩ := build_ok (w := .arr g es) (g := g) (xs := xs ++ (⟨e.l, .elem v, []⟩ : REnt) :: { e with l := [] } :: ys) rfl hg0 (by
    intro x hx
    simp only [List.mem_append, List.mem_cons] at hx
    rcases hx with hx | rfl | rfl | hx
    · exact hall x (by simp [hx])
    · exact ⟨rfl, hwe.2.1, rfl, hv⟩
    · exact ⟨hwe.1, rfl, hwe.2.2⟩
    · exact hall x (by simp [hx]))
  generalize build (.arr g es) g (xs ++ (⟨e.l, .elem v, []⟩ : REnt) :: { e with l := [] } :: ys) = w' at *
  have hent : w'.entries = (Json.arr g es).entries.take n ++ .elem v :: (Json.arr g es).entries.drop n := by
    rw [a3, rents_entries, h1, ← h2]
    simp only [List.map_append, List.map_cons]
    rw [List.take_left' (by simp), List.drop_left' (by simp)]
  have hlen : (Json.arr g es).entries.length = es.length := by simp [Json.entries]
  have hlen' : w'.entries.length = es.length + 1 := by
    rw [hent]; simp only [List.length_append, List.length_cons, List.length_take, List.length_drop, hlen]; omega
  have hd' : (d.set p w').wf := doc_upd_wf (f := fun _ => w') hd h a1
  have hg : (d.set p w').get? p = some w' := get_upd p h (fun _ => _)
  refine ⟨w', h3, hd', a2, hent, ?_, ?_, ?_⟩
  · intro q hq
    refine get_ok hd' (by simp) ?_
    unfold Doc.get? at hg ⊢
    rw [get_append, hg, Option.bind_some, get_cons_eq, slot_arr a2, hq, show Option.filter (· < w'.entries.length) (some n) = some n by simp [hlen']; omega,
      Option.bind_some, hent, List.getElem?_append_right (by simp; omega)]
    simp [hlen, Nat.min_eq_left (Nat.le_of_lt hn), Entry.val, Json.get?]
  · intro r r' j rest u hr hr' hu
    rw [get_ok hd (by simp) hu]
    refine get_ok hd' (by simp) ?_
    unfold Doc.get? at hg h hu ⊢
    rw [get_append, h, Option.bind_some, get_cons_eq, slot_arr rfl, hr, Option.bind_eq_some_iff] at hu
    obtain ⟨m, hm, hu⟩ := hu
    rw [Option.filter_eq_some_iff, Option.some.injEq] at hm
    obtain ⟨rfl, hm⟩ := hm
    simp only [hlen, decide_eq_true_eq] at hm
    rw [get_append, hg, Option.bind_some, get_cons_eq, slot_arr a2, hr']
    have hlt : (if j < n then j else j + 1) < w'.entries.length := by split <;> omega
    rw [show Option.filter (· < w'.entries.length) (some (if j < n then j else j + 1)) = some (if j < n then j else j + 1) by
      simp only [Option.filter, hlt, decide_true, if_true], Option.bind_some, hent]
    rw [← hu]
    congr 2
    by_cases hjn : j < n
    · simp only [hjn, if_true]
      rw [List.getElem?_append_left (by simp [hlen]; omega), List.getElem?_take_of_lt hjn]
    · simp only [hjn, if_false]
      rw [List.getElem?_append_right (by simp; omega)]
      simp only [List.length_take, hlen, Nat.min_eq_left (Nat.le_of_lt hn)]
      rw [show j + 1 - n = (j - n) + 1 by omega, List.getElem?_cons_succ, List.getElem?_drop, show n + (j - n) = j by omega]
  · intro q u hdv hu
    have hne : q ≠ [] := by rintro rfl; cases p <;> simp [Doc.diverge, Json.diverge] at hdv
    rw [get_ok hd hne hu]
    refine get_ok hd' hne ?_
    rw [← hu]
    exact get_upd_diverge p hdv _

example : Insert Sample.doc.render 2 (str "7") Sample.toArr =
      .done (str "\n{\"a\": 1, \"b\\\"]\" :[ 10 ,\"x]\\\\\" , 7,{\"k\":null}, [] ],\"a\":2,\"o\":{ \"p\":{\"q\":true }, \"r\":-1.5e3}} ") none ∧
    Insert (str "[1,2]") 1 (str "7") [] = .done (str "[1,7,2]") none := by decide +kernel

example : ∃ json, Insert Sample.doc.render 1 (Json.lit (str "7")).render Sample.toArr = .done json none ∧
    Get json (Sample.toArr ++ [str "1"]) = .ok (str "7") ∧ Get json (Sample.toArr ++ [str "2"]) = .ok (str "x]\\\\") := by
  obtain ⟨w', h1, -, -, -, h2, h3, -⟩ := C23_insert_partial Sample.doc Sample.toArr [] [⟨str " ", .lit (str "10"), str " "⟩,
    ⟨[], .str (str "x]\\\\"), str " "⟩, ⟨str " ", .obj [] [Sample.mem (str "k") (.lit (str "null"))], []⟩,
    ⟨str " ", .arr [] [], str " "⟩] 1 (.lit (str "7")) Sample.doc_wf (by decide +kernel) (by decide) (by decide) (by decide +kernel) (Or.inl (by decide))
  refine ⟨_, h1, h2 (str "1") (by decide +kernel), ?_⟩
  rw [h3 (str "1") (str "2") 1 [] _ (by decide +kernel) (by decide +kernel) Sample.get_str]
  exact get_ok Sample.doc_wf (by decide) Sample.get_str

/-- **C23 is false in general**: inserting before the last element of `[1, 2]` gives
`[1,,7 2]`, which has an empty element and a number `7 2`. -/
theorem C23_fails : Insert (str "[1, 2]") 1 (str "7") [] = .done (str "[1,,7 2]") none := by decide +kernel

/-- **C29** `Delete` undoes `Add` and `AddKeyValue`: after a successful addition of an element or
of a fresh member, deleting it gives back the original text, byte for byte, whether or not
the container was empty. -/
theorem C29_delete_undoes (d : Doc) (p : List Text) (w : Json) (v : Json) (hd : d.wf) (h : d.get? p = some w) (hv : v.wf) :
    (∀ json q, w.kind = .arr → readIndex q = some w.size → Add d.render v.render p = .done json none →
      Delete json (p ++ [q]) = .done d.render none) ∧
    (∀ json k, w.kind = .obj → strOk k → (∀ e ∈ w.entries, e.key ≠ some k) → AddKeyValue d.render k (some v.render) p = .done json none →
      Delete json (p ++ [k]) = .done d.render none) := by
  have hw : w.wf := get_wf p (doc_wf.1 hd).2.1 h
  refine ⟨?_, ?_⟩
  · intro json q hk hq ha
    cases w with
    | lit t => simp [Json.kind] at hk
    | str t => simp [Json.kind] at hk
    | obj g ms => simp [Json.kind] at hk
    | arr g es =>
      rw [add_ok hd h v] at ha
      simp only [Mut.done.injEq, and_true] at ha
      subst ha
      obtain ⟨a1, a2, a3⟩ := addEnt_ok hw rfl (x := .elem v) (by rfl) hv
      exact delete_added hd h rfl (by rfl) hv (slot_added_arr rfl a2 a3 (by simpa [Json.entries, Json.size] using hq))
  · intro json k hk hks hkey ha
    cases w with
    | lit t => simp [Json.kind] at hk
    | str t => simp [Json.kind] at hk
    | arr g ms => simp [Json.kind] at hk
    | obj g ms =>
      have hkey : ∀ m ∈ ms, m.key ≠ k := by
        intro m hm he
        exact hkey (.member m.key m.m m.l2 m.v) (by simp only [Json.entries, List.mem_map]; exact ⟨m, hm, rfl⟩) (by simp [Entry.key, he])
      rcases addkv_done hd h ha with ⟨-, hc⟩ | ⟨e, he, -⟩
      · obtain ⟨w', h1, -, -, -, -, -, -, h5⟩ := addkv_result hd h hkey hks hv hc
        rw [h1] at ha
        simp only [Mut.done.injEq, and_true] at ha
        exact ha ▸ h5
      · cases he

example : ∃ json, Add Sample.doc.render (Json.lit (str "7")).render Sample.toArr = .done json none ∧ json ≠ Sample.doc.render ∧
    Delete json (Sample.toArr ++ [str "4"]) = .done Sample.doc.render none := by
  refine ⟨str "\n{\"a\": 1, \"b\\\"]\" :[ 10 ,\"x]\\\\\" , {\"k\":null}, [] ,7],\"a\":2,\"o\":{ \"p\":{\"q\":true }, \"r\":-1.5e3}} ",
    by decide +kernel, by decide +kernel, ?_⟩
  exact (C29_delete_undoes Sample.doc Sample.toArr (.arr [] [⟨str " ", .lit (str "10"), str " "⟩,
    ⟨[], .str (str "x]\\\\"), str " "⟩, ⟨str " ", .obj [] [Sample.mem (str "k") (.lit (str "null"))], []⟩,
    ⟨str " ", .arr [] [], str " "⟩]) (.lit (str "7")) Sample.doc_wf (by decide +kernel) (by decide +kernel)).1 _ _ rfl (by decide +kernel) (by decide +kernel)

end Jin
