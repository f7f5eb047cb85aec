import Verif.Props.Add
/-!
# Props.SetKey — C24–C26: `SetKey`, `Store`
-/

namespace Jin
open Spec

/-- `SetKey` where `core` reports the new key missing. -/
theorem setKey_result (d : Doc) (p : List Text) (q new : Text) (g : Text) (ms : List (Member Json)) (n : Nat) (hd : d.wf)
    (h : d.get? p = some (.obj g ms)) (hq : memberIdx ms q = some n) (hne : new ≠ []) (hnew : ∀ m ∈ ms, m.key ≠ new) (hns : strOk new)
    (hok : ∃ e, core d.render false (p ++ [new]) = .err e ∧ errEqual (some e) codeKeyNotFound = true) :
    ∃ A B d', d.render = A ++ (q ++ B) ∧ SetKey d.render new (p ++ [q]) = .done (A ++ (new ++ B)) none ∧
      A ++ (new ++ B) = d'.render ∧ d' = d.set p (.obj g (ms.modify n fun m => { m with key := new })) ∧ d'.wf ∧
      (∀ rest u, d.get? (p ++ q :: rest) = some u → Get d'.render (p ++ new :: rest) = Get d.render (p ++ q :: rest)) ∧
      (∀ r rest u, r ≠ q → d.get? (p ++ r :: rest) = some u → Get d'.render (p ++ r :: rest) = Get d.render (p ++ r :: rest)) := by
  have hmi := memberIdx_absent hnew
  obtain ⟨A, B, h1, h2, h3⟩ := setKey_ok hd h hq hne hok
  have hw : (Json.obj g ms).wf := get_wf p (doc_wf.1 hd).2.1 h
  have hw' : (Json.obj g (ms.modify n fun m => { m with key := new })).wf := by
    rw [wf_obj] at hw ⊢
    refine ⟨hw.1, ?_⟩
    have := wfMembers_iff.1 hw.2
    rw [wfMembers_iff]
    intro m hm
    rcases mem_modify hm with hm | ⟨m0, hm0, rfl⟩
    · exact this m hm
    · exact ⟨(this m0 (List.mem_of_getElem? hm0)).1, hns, (this m0 (List.mem_of_getElem? hm0)).2.2⟩
  have hd' : (d.set p (.obj g (ms.modify n fun m => { m with key := new }))).wf := doc_upd_wf (f := fun _ => _) hd h hw'
  have hg : (d.set p (.obj g (ms.modify n fun m => { m with key := new }))).get? p = some (.obj g (ms.modify n fun m => { m with key := new })) := get_upd p h (fun _ => _)
  obtain ⟨xs, m, ys, hs, hl, hkey, hx⟩ := memberIdx_split hq
  have hmod : ms.modify n (fun m => { m with key := new }) = xs ++ { m with key := new } :: ys := by
    rw [hs, ← hl, List.modify_eq_take_cons_drop (by simp)]; simp
  have hval : ∀ i : Nat, (ms.modify n fun m => { m with key := new })[i]?.map Member.v = ms[i]?.map Member.v := by
    intro i
    rw [List.getElem?_modify]
    cases ms[i]? with
    | none => rfl
    | some m => simp only [Option.map_some]; split <;> rfl
  refine ⟨A, B, _, h1, h2, h3, rfl, hd', ?_, ?_⟩
  · intro rest u hu
    rw [get_ok hd (by simp) hu]
    refine get_ok hd' (by simp) ?_
    unfold Doc.get? at hg h hu ⊢
    rw [get_append, h, Option.bind_some] at hu
    rw [get_append, hg, Option.bind_some]
    have : memberIdx (ms.modify n fun m => { m with key := new }) new = some n := by
      rw [hmod, memberIdx, List.findIdx?_append]
      have : List.findIdx? (fun m => m.key == new) xs = none := by
        rw [List.findIdx?_eq_none_iff]
        intro a ha
        simpa using hnew a (by rw [hs]; simp [ha])
      rw [this, List.findIdx?_cons]
      simp [hl]
    rw [← hu]
    simp only [Json.get?, Json.child?, this, hq, Option.bind_some]
    rw [hval]
  · intro r rest u hr hu
    rw [get_ok hd (by simp) hu]
    refine get_ok hd' (by simp) ?_
    unfold Doc.get? at hg h hu ⊢
    rw [get_append, h, Option.bind_some] at hu
    rw [get_append, hg, Option.bind_some]
    have hrn : r ≠ new := by
      rintro rfl
      simp [Json.get?, Json.child?, hmi] at hu
    have : memberIdx (ms.modify n fun m => { m with key := new }) r = memberIdx ms r := by
      rw [hmod, hs, memberIdx, memberIdx, List.findIdx?_append, List.findIdx?_append, List.findIdx?_cons, List.findIdx?_cons]
      have e1 : (new == r) = false := by simpa using hrn.symm
      have e2 : (m.key == r) = false := by rw [hkey]; simpa using hr.symm
      simp only [e1, e2]
    rw [← hu]
    simp only [Json.get?, Json.child?, this]
    cases memberIdx ms r with
    | none => rfl
    | some i => simp only [Option.bind_some]; rw [hval]

/-- **C24 (partial)** `SetKey` at a member (the first with its key) whose object lacks the new
key: the text is split as `A ++ key ++ B` and becomes `A ++ new ++ B`; that is the text of
the document in which exactly this member has the new key, and `Get` through the new key
gives the old value, at any depth below it.  Missing: objects in surroundings that violate
`Doc.clear`, where the new key may be found in later text and the call refused
(`C24_fails`). -/
theorem C24_setKey_partial (d : Doc) (p : List Text) (q new : Text) (g : Text) (ms : List (Member Json)) (n : Nat) (hd : d.wf)
    (h : d.get? p = some (.obj g ms)) (hq : memberIdx ms q = some n) (hne : new ≠ []) (hnew : ∀ m ∈ ms, m.key ≠ new) (hns : strOk new)
    (hok : d.clear p new) :
    ∃ A B d', d.render = A ++ (q ++ B) ∧ SetKey d.render new (p ++ [q]) = .done (A ++ (new ++ B)) none ∧
      A ++ (new ++ B) = d'.render ∧ d' = d.set p (.obj g (ms.modify n fun m => { m with key := new })) ∧ d'.wf ∧
      (∀ rest u, d.get? (p ++ q :: rest) = some u → Get d'.render (p ++ new :: rest) = Get d.render (p ++ q :: rest)) ∧
      (∀ r rest u, r ≠ q → d.get? (p ++ r :: rest) = some u → Get d'.render (p ++ r :: rest) = Get d.render (p ++ r :: rest)) := by
  exact setKey_result d p q new g ms n hd h hq hne hnew hns ⟨_, core_clear hd h (memberIdx_absent hnew) hok _, errEqual_keyNotFound new⟩

/-- **C24, the general case**: with any surroundings, `SetKey` of a member whose object lacks the
new key either renames exactly this member or returns an error and the text unchanged. -/
theorem C24_all_or_nothing_partial (d : Doc) (p : List Text) (q new : Text) (g : Text) (ms : List (Member Json)) (n : Nat) (hd : d.wf)
    (h : d.get? p = some (.obj g ms)) (hq : memberIdx ms q = some n) (hnew : ∀ m ∈ ms, m.key ≠ new) (hns : strOk new)
    (json : Bytes) (er : Option Err) (ha : SetKey d.render new (p ++ [q]) = .done json er) :
    (er ≠ none ∧ json = d.render) ∨
    (er = none ∧ ∃ d', json = d'.render ∧ d' = d.set p (.obj g (ms.modify n fun m => { m with key := new })) ∧ d'.wf ∧
      ∀ rest u, d.get? (p ++ q :: rest) = some u → Get d'.render (p ++ new :: rest) = Get d.render (p ++ q :: rest)) := by
  by_cases hne : new = []
  · subst hne
    rw [(C28_need_path d.render [] []).2.2.2] at ha
    cases ha; exact .inl ⟨by simp, rfl⟩
  cases er with
  | some e => exact .inl ⟨by simp, keeps_setKey _ _ _ _ _ ha⟩
  | none =>
    right
    have hok : ∃ e, core d.render false (p ++ [new]) = .err e ∧ errEqual (some e) codeKeyNotFound = true := by
      unfold SetKey at ha
      rw [if_neg (by simpa using hne), if_neg (by simp), List.dropLast_concat] at ha
      split at ha
      · cases ha
      · cases ha
      · rename_i e he
        refine ⟨e, he, ?_⟩
        split at ha
        · rename_i hc; exact hc
        · cases ha
    obtain ⟨A, B, d', -, h2, h3, h4, h5, h6, -⟩ := setKey_result d p q new g ms n hd h hq hne hnew hns hok
    rw [h2] at ha
    cases ha
    exact ⟨rfl, d', h3, h4, h5, h6⟩

example : SetKey Sample.doc.render (str "new\\\"") [str "b\\\"]"] =
    .done (str "\n{\"a\": 1, \"new\\\"\" :[ 10 ,\"x]\\\\\" , {\"k\":null}, [] ],\"a\":2,\"o\":{ \"p\":{\"q\":true }, \"r\":-1.5e3}} ") none := by
  decide +kernel

example : ∃ json, SetKey Sample.doc.render (str "s") [str "o", str "p"] = .done json none ∧ json ≠ Sample.doc.render ∧
    Get json [str "o", str "s", str "q"] = .ok (str "true") := by
  obtain ⟨A, B, d', h1, h2, h3, h4, -, h5, -⟩ := C24_setKey_partial Sample.doc Sample.toObj (str "p") (str "s") [] [⟨str " ", str "p", [], [], .obj [] [⟨[], str "q", [], [], .lit (str "true"), str " "⟩], []⟩,
        ⟨str " ", str "r", [], [], .lit (str "-1.5e3"), []⟩] 0 Sample.doc_wf (by decide +kernel) (by decide +kernel) (by decide +kernel) (by decide +kernel)
        (by decide +kernel) (.inl (by decide +kernel))
  refine ⟨_, h2, ?_, ?_⟩
  · rw [h1]; simp; decide +kernel
  · rw [h3]
    exact (h5 [str "q"] _ Sample.get_true).trans ((get_ok Sample.doc_wf (by decide) Sample.get_true).trans (by decide +kernel))

/-- **C24 is false in general**: `a` has no key `z`, but renaming `x` to `z` is refused. -/
theorem C24_fails : SetKey (str "{\"a\":{\"x\":1},\"b\":{\"y\":2,\"z\":3}}") (str "z") [str "a", str "x"] =
    .done (str "{\"a\":{\"x\":1},\"b\":{\"y\":2,\"z\":3}}") (some (.badJSON 0)) := by decide +kernel

/-- **C25** `SetKey` with a new key that the object has, or with an empty one, returns an error
and the text unchanged; the old key need not exist. -/
theorem C25_setKey_exists (d : Doc) (p : List Text) (q new : Text) (g : Text) (ms : List (Member Json)) (hd : d.wf)
    (h : d.get? p = some (.obj g ms)) (hnew : new = [] ∨ ∃ m ∈ ms, m.key = new) :
    SetKey d.render new (p ++ [q]) = .done d.render (some (if new = [] then .nullKey else .badJSON 0)) := by
  by_cases h0 : new = []
  · subst h0; rfl
  have hk := hnew.resolve_left h0
  have hn : ∃ n, memberIdx ms new = some n := by
    obtain ⟨m, hm, hk⟩ := hk
    cases hi : memberIdx ms new with
    | some n => exact ⟨n, rfl⟩
    | none => exact absurd hk (memberIdx_none hi m hm)
  obtain ⟨n, hn⟩ := hn
  have hget : ∃ c, d.get? (p ++ [new]) = some c := by
    unfold Doc.get? at h ⊢
    have hlt := slot_lt (w := .obj g ms) (q := new) (n := n) hn
    rw [get_append, h, Option.bind_some, get_cons_eq, show (Json.obj g ms).slot? new = some n from hn, Option.bind_some,
      List.getElem?_eq_getElem hlt]
    exact ⟨_, rfl⟩
  obtain ⟨c, hget⟩ := hget
  obtain ⟨f, hf, -⟩ := findAt_of_get hget
  unfold SetKey
  rw [if_neg (by simpa using h0), if_neg (by simp), List.dropLast_concat, core_found hd (by simp) hf, if_neg h0]

example : SetKey Sample.doc.render (str "o") [str "a"] = .done Sample.doc.render (some (.badJSON 0)) :=
  (C25_setKey_exists Sample.doc [] (str "a") (str "o") _ _ Sample.doc_wf rfl (Or.inr ⟨⟨[], str "o", [], [], .obj [] [⟨str " ", str "p", [], [], .obj [] [⟨[], str "q", [], [], .lit (str "true"), str " "⟩], []⟩,
        ⟨str " ", str "r", [], [], .lit (str "-1.5e3"), []⟩], []⟩, by simp [Sample.rootMembers, Sample.members], rfl⟩)).trans (by decide +kernel)

/-- **C26 (partial)** `Store` at an object: with a key it has, the same as `Set` at path and key;
with a key it lacks, the same as `AddKeyValue`.  Missing: absent keys in surroundings that
violate `Doc.clear`, where `Store` may overwrite a value outside of the object
(`C26_fails`). -/
theorem C26_store_partial (d : Doc) (p : List Text) (g : Text) (ms : List (Member Json)) (k : Text) (v : Bytes) (hd : d.wf)
    (h : d.get? p = some (.obj g ms)) :
    ((∃ m ∈ ms, m.key = k) → Store d.render k (some v) p = Set d.render v (p ++ [k])) ∧
    ((∀ m ∈ ms, m.key ≠ k) → d.clear p k → ∀ v : Option Bytes, Store d.render k v p = AddKeyValue d.render k v p) := by
  refine ⟨fun hk => ?_, fun hk hok v => ?_⟩
  · have hn : ∃ n, memberIdx ms k = some n := by
      obtain ⟨m, hm, hk⟩ := hk
      cases hi : memberIdx ms k with
      | some n => exact ⟨n, rfl⟩
      | none => exact absurd hk (memberIdx_none hi m hm)
    obtain ⟨n, hn⟩ := hn
    have hget : ∃ c, d.get? (p ++ [k]) = some c := by
      unfold Doc.get? at h ⊢
      have hlt := slot_lt (w := .obj g ms) (q := k) (n := n) hn
      rw [get_append, h, Option.bind_some, get_cons_eq, show (Json.obj g ms).slot? k = some n from hn, Option.bind_some,
        List.getElem?_eq_getElem hlt]
      exact ⟨_, rfl⟩
    obtain ⟨c, hget⟩ := hget
    obtain ⟨f, hf, -⟩ := findAt_of_get hget
    unfold Store Set
    rw [if_neg (by simp), core_found hd (by simp) hf]
    rfl
  · unfold Store
    rw [core_clear hd h (memberIdx_absent hk) hok]
    simp only [errEqual_keyNotFound, if_true]

/-- What `Store` does to the text, from C12 and C21. -/
example : Store Sample.doc.render (str "p") (some (str "0")) Sample.toObj =
      .done (str "\n{\"a\": 1, \"b\\\"]\" :[ 10 ,\"x]\\\\\" , {\"k\":null}, [] ],\"a\":2,\"o\":{ \"p\":0, \"r\":-1.5e3}} ") none ∧
    Store Sample.doc.render (str "q") (some (str "0")) Sample.toObj =
      .done (str "\n{\"a\": 1, \"b\\\"]\" :[ 10 ,\"x]\\\\\" , {\"k\":null}, [] ],\"a\":2,\"o\":{ \"p\":{\"q\":true }, \"r\":-1.5e3,\"q\":0}} ") none := by
  decide +kernel

example : Store Sample.doc.render (str "q") (some (str "0")) Sample.toObj = AddKeyValue Sample.doc.render (str "q") (some (str "0")) Sample.toObj :=
  (C26_store_partial Sample.doc Sample.toObj [] [⟨str " ", str "p", [], [], .obj [] [⟨[], str "q", [], [], .lit (str "true"), str " "⟩], []⟩,
        ⟨str " ", str "r", [], [], .lit (str "-1.5e3"), []⟩] (str "q") (str "0") Sample.doc_wf (by decide +kernel)).2 (by decide +kernel) (.inl (by decide +kernel)) _

/-- **C26 is false in general**: storing the fresh key `z` in `a` overwrites `b/z`. -/
theorem C26_fails : Store (str "{\"a\":{\"x\":1},\"b\":{\"y\":2,\"z\":3}}") (str "z") (some (str "0")) [str "a"] =
    .done (str "{\"a\":{\"x\":1},\"b\":{\"y\":2,\"z\":0}}") none := by decide +kernel

end Jin
