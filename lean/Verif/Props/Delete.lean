import Verif.Props.Sample
import Verif.Proof.EntryTree
import Verif.Proof.Fresh
/-!
# Props.Delete — C16–C19
-/

namespace Jin
open Spec

/-- The container after `Delete`. -/
theorem delete_entries {d : Doc} {p : List Text} {w : Json} {q : Text} {n : Nat} (hd : d.wf) (h : d.get? p = some w)
    (hq : w.slot? q = some n) : ∃ w', Delete d.render (p ++ [q]) = .done (d.set p w').render none ∧ w'.wf ∧ w'.kind = w.kind ∧
      w'.entries = w.entries.eraseIdx n := by
  obtain ⟨xs, e, ys, h1, h2, hw, hcon, h3⟩ := delete_ok hd h hq
  have hall := rents_all hcon hw
  rw [h1] at hall
  have hwe := hall e (by simp)
  have hb := build_ok (xs := dropEnt xs e ys) hcon (ws_append.2 ⟨hwe.2.1, hwe.2.2.1⟩)
    (dropEnt_all (P := fun x => Fits w x.e ∧ Ws x.l ∧ Ws x.r ∧ x.e.ok) xs e ys hall
      (fun a b ha hb => ⟨hb.1, ws_append.2 ⟨ha.2.1, hb.2.1⟩, hb.2.2⟩)
      (fun a b ha hb => ⟨hb.1, hb.2.1, ws_append.2 ⟨hb.2.2.1, ha.2.2.1⟩, hb.2.2.2⟩))
  refine ⟨_, h3, hb.1, hb.2.1, ?_⟩
  rw [hb.2.2, dropEnt_entries, rents_entries, h1, ← h2, List.map_append, List.map_cons]
  rw [List.eraseIdx_append_of_length_le (by simp)]
  simp

/-- **C16** `Delete` of a path that resolves removes exactly that entry of its container `w`:
the result is the text of a well-formed document that has in place of `w` a container of the
same kind whose entries are those of `w` without the selected one, each with its own text;
outside of `w` nothing changes (`Doc.set`). -/
theorem C16_delete_exact (d : Doc) (p : List Text) (q : Text) (w c : Json) (hd : d.wf) (hw : d.get? p = some w)
    (hc : d.get? (p ++ [q]) = some c) :
    ∃ n w', w.slot? q = some n ∧ w.entries[n]?.map Entry.val = some c ∧
      Delete d.render (p ++ [q]) = .done (d.set p w').render none ∧ (d.set p w').wf ∧
      w'.kind = w.kind ∧ w'.entries = w.entries.eraseIdx n := by
  unfold Doc.get? at hw hc
  rw [get_append, hw, Option.bind_some, get_cons_eq, Option.bind_eq_some_iff] at hc
  obtain ⟨n, hn, hc⟩ := hc
  obtain ⟨w', h1, h2, h3, h4⟩ := delete_entries hd hw hn
  refine ⟨n, w', hn, ?_, h1, doc_upd_wf (f := fun _ => w') hd hw h2, h3, h4⟩
  simpa [Json.get?] using hc

/-- A document with its text before and after `Delete`: first, middle, last and only entries. -/
example : Delete Sample.doc.render [str "b\\\"]", str "1"] =
    .done (str "\n{\"a\": 1, \"b\\\"]\" :[ 10 , {\"k\":null}, [] ],\"a\":2,\"o\":{ \"p\":{\"q\":true }, \"r\":-1.5e3}} ") none ∧
    Delete Sample.doc.render [str "b\\\"]", str "3"] =
    .done (str "\n{\"a\": 1, \"b\\\"]\" :[ 10 ,\"x]\\\\\" , {\"k\":null} ],\"a\":2,\"o\":{ \"p\":{\"q\":true }, \"r\":-1.5e3}} ") none ∧
    Delete Sample.doc.render [str "o", str "p", str "q"] =
    .done (str "\n{\"a\": 1, \"b\\\"]\" :[ 10 ,\"x]\\\\\" , {\"k\":null}, [] ],\"a\":2,\"o\":{ \"p\":{ }, \"r\":-1.5e3}} ") none := by
  decide +kernel

example : ∃ n w', (.obj [] [⟨str " ", str "p", [], [], .obj [] [⟨[], str "q", [], [], .lit (str "true"), str " "⟩], []⟩,
        ⟨str " ", str "r", [], [], .lit (str "-1.5e3"), []⟩] : Json).slot? (str "r") = some n ∧ n = 1 ∧
      Delete Sample.doc.render [str "o", str "r"] = .done (Sample.doc.set [str "o"] w').render none := by
  obtain ⟨n, w', h1, -, h2, -⟩ := C16_delete_exact Sample.doc [str "o"] (str "r") (.obj [] [⟨str " ", str "p", [], [], .obj [] [⟨[], str "q", [], [], .lit (str "true"), str " "⟩], []⟩,
        ⟨str " ", str "r", [], [], .lit (str "-1.5e3"), []⟩]) (.lit (str "-1.5e3")) Sample.doc_wf (by decide +kernel) (by decide +kernel)
  refine ⟨n, w', h1, ?_, h2⟩
  have : (.obj [] [⟨str " ", str "p", [], [], .obj [] [⟨[], str "q", [], [], .lit (str "true"), str " "⟩], []⟩,
        ⟨str " ", str "r", [], [], .lit (str "-1.5e3"), []⟩] : Json).slot? (str "r") = some 1 := by decide +kernel
  rw [this] at h1
  exact (Option.some.inj h1).symm

/-- **C17** After deleting element `i` of an array, index `j` finds what was at `j` for
`j < i` and what was at `j + 1` for `j ≥ i`, with any further path; the array is one
shorter, so an index at or above the new length gives an error. -/
theorem C17_delete_shift (d : Doc) (p : List Text) (q : Text) (g : Text) (es : List (Elem Json)) (i : Nat) (hd : d.wf)
    (hw : d.get? p = some (.arr g es)) (hq : readIndex q = some i) (hi : i < es.length) :
    ∃ json, Delete d.render (p ++ [q]) = .done json none ∧
      (∀ (r r' : Text) (j : Nat) (rest : List Text) (v : Json), readIndex r = some j →
        readIndex r' = some (if j < i then j else j + 1) → d.get? (p ++ r' :: rest) = some v →
        Get json (p ++ r :: rest) = .ok v.content ∧ Get json (p ++ r :: rest) = Get d.render (p ++ r' :: rest)) ∧
      (∀ (r : Text) (j : Nat), readIndex r = some j → es.length ≤ j + 1 →
        Get json (p ++ [r]) = .err (if j = 0 then .emptyArray else .indexOutOfRange)) := by
  have hs : (Json.arr g es).slot? q = some i := by simp [Json.slot?, hq, hi]
  obtain ⟨w', h1, h2, h3, h4⟩ := delete_entries hd hw hs
  have hd' : (d.set p w').wf := doc_upd_wf (f := fun _ => w') hd hw h2
  have hlen : w'.entries.length = es.length - 1 := by
    rw [h4, List.length_eraseIdx]; simp [Json.entries, hi]
  refine ⟨_, h1, ?_, ?_⟩
  · intro r r' j rest v hr hr' hv
    have hg : (d.set p w').get? (p ++ r :: rest) = some v := by
      unfold Doc.get? at hv hw ⊢
      rw [get_append, hw, Option.bind_some, get_cons_eq, slot_arr (by rfl), hr', Option.bind_eq_some_iff] at hv
      obtain ⟨m, hm, hv⟩ := hv
      rw [Option.filter_eq_some_iff, Option.some.injEq] at hm
      obtain ⟨rfl, hm⟩ := hm
      have hm' : (if j < i then j else j + 1) < es.length := by simpa [Json.entries] using hm
      show (d.root.set p w').get? _ = _
      rw [Json.set, get_upd_append p hw, get_cons_eq, slot_arr h3, hr]
      have hj : j < w'.entries.length := by rw [hlen]; split at hm' <;> omega
      rw [show Option.filter (· < w'.entries.length) (some j) = some j by simp [hj], Option.bind_some, h4, List.getElem?_eraseIdx]
      split <;> rename_i hji <;> simp only [hji, if_true, if_false] at hv <;> exact hv
    rw [get_ok hd' (by simp) hg, get_ok hd (by simp) hv]
    exact ⟨rfl, rfl⟩
  · intro r j hr hj
    have hg : (d.set p w').get? p = some w' := get_upd p hw (fun _ => w')
    cases w' with
    | lit t => simp [Json.kind] at h3
    | str t => simp [Json.kind] at h3
    | obj g ms => simp [Json.kind] at h3
    | arr g' es' =>
      obtain ⟨f, hf, hv, hseg, hwf⟩ := find_any hd' hg
      have hri : readInt r = some (j : Int) := by
        unfold readIndex at hr
        split at hr
        · rename_i n hn
          rw [hn]; cases hr; rfl
        · cases hr
      have hl : es'.length = es.length - 1 := by simpa [Json.entries] using hlen
      unfold Get
      rw [if_neg (by simp), core_index_range hd' hf hv (hv ▸ hseg) (hv ▸ hwf) hri (Or.inr (by omega))]
      simp

example : ∃ json, Delete Sample.doc.render (Sample.toArr ++ [str "1"]) = .done json none ∧
    Get json (Sample.toArr ++ [str "1", str "k"]) = .ok (str "null") ∧ Get json (Sample.toArr ++ [str "3"]) = .err .indexOutOfRange := by
  obtain ⟨json, h1, h2, h3⟩ := C17_delete_shift Sample.doc Sample.toArr (str "1") [] [⟨str " ", .lit (str "10"), str " "⟩,
    ⟨[], .str (str "x]\\\\"), str " "⟩, ⟨str " ", .obj [] [Sample.mem (str "k") (.lit (str "null"))], []⟩,
    ⟨str " ", .arr [] [], str " "⟩] 1 Sample.doc_wf (by decide +kernel) (by decide +kernel) (by decide)
  refine ⟨json, h1, (h2 (str "1") (str "2") 1 [str "k"] (.lit (str "null")) (by decide +kernel) (by decide +kernel) (by decide +kernel)).1,
    h3 (str "3") 3 (by decide +kernel) (by decide)⟩

/-- **C18** After deleting a member of an object, every path that resolved and diverges from it
resolves to the same value, and `Get` returns the same bytes. -/
theorem C18_delete_frame (d : Doc) (p : List Text) (q : Text) (g : Text) (ms : List (Member Json)) (q2 : List Text) (v : Json)
    (hd : d.wf) (hw : d.get? p = some (.obj g ms)) (hq : ∃ m ∈ ms, m.key = q) (hv : d.get? q2 = some v)
    (hdv : d.diverge (p ++ [q]) q2) :
    ∃ json, Delete d.render (p ++ [q]) = .done json none ∧ Get json q2 = .ok v.content ∧ Get json q2 = Get d.render q2 := by
  have hn : ∃ n, memberIdx ms q = some n := by
    obtain ⟨m, hm, hk⟩ := hq
    cases hi : memberIdx ms q with
    | some n => exact ⟨n, rfl⟩
    | none => exact absurd hk (memberIdx_none hi m hm)
  obtain ⟨n, hn⟩ := hn
  have hs : (Json.obj g ms).slot? q = some n := hn
  obtain ⟨w', h1, h2, h3, h4⟩ := delete_entries hd hw hs
  have hd' : (d.set p w').wf := doc_upd_wf (f := fun _ => w') hd hw h2
  have hne : q2 ≠ [] := by rintro rfl; cases p <;> simp [Doc.diverge, Json.diverge] at hdv
  have hg : (d.set p w').get? q2 = some v := by
    rw [← hv]
    refine get_upd_parent (f := fun _ => w') p hw hdv ?_
    intro r rs hr
    obtain ⟨a, b, ha, hb, hab⟩ := diverge_cons hr
    have hab : a ≠ b := by
      rcases hab with hab | ⟨-, c, -, hc⟩
      · exact hab
      · simp [Json.diverge] at hc
    obtain rfl : n = a := by rw [hs] at ha; exact Option.some.inj ha
    rw [get_cons_eq, get_cons_eq, hb, slot_obj h3, h4, Option.bind_some]
    rw [slot_obj rfl] at hs hb
    rw [List.findIdx?_eq_some_iff_getElem] at hs hb
    obtain ⟨a1, a2, a3⟩ := hs
    obtain ⟨b1, b2, b3⟩ := hb
    have hidx : List.findIdx? (fun e => e.key == some r) ((Json.obj g ms).entries.eraseIdx n) = some (if n < b then b - 1 else b) := by
      rw [List.findIdx?_eq_some_iff_getElem]
      refine ⟨?_, ?_, ?_⟩
      · rw [List.length_eraseIdx, if_pos a1]; split <;> omega
      · by_cases hnb : n < b
        · simp only [hnb, if_true]
          rw [List.getElem_eraseIdx_of_ge _ (by omega)]
          have : b - 1 + 1 = b := by omega
          simpa only [this] using b2
        · simp only [hnb, if_false]
          rw [List.getElem_eraseIdx_of_lt _ (by omega)]
          exact b2
      · intro j hj
        by_cases hjn : j < n
        · rw [List.getElem_eraseIdx_of_lt _ hjn]
          exact b3 j (by split at hj <;> omega)
        · rw [List.getElem_eraseIdx_of_ge _ (by omega)]
          exact b3 (j + 1) (by split at hj <;> omega)
    rw [hidx, Option.bind_some, List.getElem?_eraseIdx]
    by_cases hnb : n < b
    · simp only [hnb, if_true]
      rw [if_neg (by omega), show b - 1 + 1 = b by omega]
    · simp only [hnb, if_false]
      rw [if_pos (by omega)]
  refine ⟨_, h1, get_ok hd' hne hg, ?_⟩
  rw [get_ok hd' hne hg, get_ok hd hne hv]

example : ∃ json, Delete Sample.doc.render [str "o"] = .done json none ∧ Get json Sample.toStr = .ok (str "x]\\\\") := by
  obtain ⟨json, h1, h2, -⟩ := C18_delete_frame Sample.doc [] (str "o") _ _ Sample.toStr _ Sample.doc_wf rfl
    ⟨⟨[], str "o", [], [], .obj [] [⟨str " ", str "p", [], [], .obj [] [⟨[], str "q", [], [], .lit (str "true"), str " "⟩], []⟩,
        ⟨str " ", str "r", [], [], .lit (str "-1.5e3"), []⟩], []⟩, by simp [Sample.rootMembers, Sample.members], rfl⟩ Sample.get_str (diverge_of (a := 3) (b := 1) (by decide +kernel) (by decide +kernel) (Or.inl (by decide)))
  exact ⟨json, h1, h2⟩

/-- The document after deleting the only member with a key. -/
theorem delete_member (d : Doc) (p : List Text) (q : Text) (g : Text) (ms : List (Member Json)) (n : Nat)
    (hd : d.wf) (hw : d.get? p = some (.obj g ms)) (hq : memberIdx ms q = some n) (huniq : ∀ m ∈ ms.eraseIdx n, m.key ≠ q) :
    ∃ g' ms', Delete d.render (p ++ [q]) = .done (d.set p (.obj g' ms')).render none ∧ (d.set p (.obj g' ms')).wf ∧
      (d.set p (.obj g' ms')).get? p = some (.obj g' ms') ∧ (Json.obj g' ms').entries = (Json.obj [] (ms.eraseIdx n)).entries ∧
      memberIdx ms' q = none := by
  obtain ⟨w', h1, h2, h3, h4⟩ := delete_entries hd hw (show (Json.obj g ms).slot? q = some n from hq)
  have hd' : (d.set p w').wf := doc_upd_wf (f := fun _ => w') hd hw h2
  have hg : (d.set p w').get? p = some w' := get_upd p hw (fun _ => w')
  have he : w'.entries = (Json.obj [] (ms.eraseIdx n)).entries := by
    rw [h4]
    simp only [Json.entries, List.eraseIdx_eq_take_drop_succ, List.map_append, List.map_take, List.map_drop]
  cases w' with
  | lit t => simp [Json.kind] at h3
  | str t => simp [Json.kind] at h3
  | arr g ms => simp [Json.kind] at h3
  | obj g' ms' =>
    refine ⟨g', ms', h1, hd', hg, he, ?_⟩
    have := slot_obj (w := .obj g' ms') rfl q
    rw [he, ← slot_obj (w := .obj [] (ms.eraseIdx n)) rfl] at this
    rw [show memberIdx ms' q = memberIdx (ms.eraseIdx n) q from this, memberIdx, List.findIdx?_eq_none_iff]
    intro m hm
    simpa using huniq m hm

/-- **C19 (partial)** After deleting a member whose key occurs once, the key is reported
missing.  Missing: surroundings that violate `Json.missOk` once the member is gone, where
the key is found in later text (`C19_fails`). -/
theorem C19_deleted_gone_partial (d : Doc) (p : List Text) (q : Text) (g : Text) (ms : List (Member Json)) (n : Nat)
    (hd : d.wf) (hw : d.get? p = some (.obj g ms)) (hq : memberIdx ms q = some n)
    (huniq : ∀ m ∈ ms.eraseIdx n, m.key ≠ q)
    (hok : (d.root.set p (.obj [] (ms.eraseIdx n))).missOk p) :
    ∃ json, Delete d.render (p ++ [q]) = .done json none ∧ ∀ qs, Get json (p ++ q :: qs) = .err (.keyNotFound q) := by
  obtain ⟨g', ms', h1, hd', hg, he, hm⟩ := delete_member d p q g ms n hd hw hq huniq
  refine ⟨_, h1, fun qs => ?_⟩
  rw [← missOk_congr hw he] at hok
  unfold Get
  rw [if_neg (by simp), core_miss hd' hg hm hok]
  rfl

/-- **C19 (partial)** In any surroundings, a deleted key is reported missing when its quoted text
does not occur in the resulting text. -/
theorem C19_deleted_text_partial (d : Doc) (p : List Text) (q : Text) (g : Text) (ms : List (Member Json)) (n : Nat)
    (hd : d.wf) (hw : d.get? p = some (.obj g ms)) (hq : memberIdx ms q = some n)
    (huniq : ∀ m ∈ ms.eraseIdx n, m.key ≠ q) (hl : p.getLast? ≠ some q) :
    ∃ json, Delete d.render (p ++ [q]) = .done json none ∧
      (¬ 34 :: (q ++ [34]) <:+: json → ¬ q <+: json → ∀ qs, Get json (p ++ q :: qs) = .err (.keyNotFound q)) := by
  obtain ⟨g', ms', h1, hd', hg, he, hm⟩ := delete_member d p q g ms n hd hw hq huniq
  refine ⟨_, h1, fun hn hpre qs => ?_⟩
  have hs : strOk q := by
    obtain ⟨xs, m, ys, e, -, hk⟩ := memberIdx_split hq
    have hwf := get_wf p (doc_wf.1 hd).2.1 hw
    have := members_strOk (wf_obj.1 hwf).2 m (by simp [e])
    rwa [hk.1] at this
  unfold Get
  rw [if_neg (by simp), core_fresh hd' hg hm (fresh_of_text hs hpre hg hl hn)]
  rfl

example : ∃ json, Delete Sample.doc.render [str "o", str "p"] = .done json none ∧
    Get json [str "o", str "p"] = .err (.keyNotFound (str "p")) := by
  obtain ⟨json, h1, h2⟩ := C19_deleted_gone_partial Sample.doc [str "o"] (str "p") [] [⟨str " ", str "p", [], [], .obj [] [⟨[], str "q", [], [], .lit (str "true"), str " "⟩], []⟩,
        ⟨str " ", str "r", [], [], .lit (str "-1.5e3"), []⟩] 0 Sample.doc_wf (by decide +kernel) (by decide +kernel) (by decide +kernel) (by decide +kernel)
  exact ⟨json, h1, h2 []⟩

/-- `{"a":{"x":1,"w":5},"b":{"y":2,"z":3}}` without `a/w`. -/
example : ∃ json, Delete (str "{\"a\":{\"x\":1,\"w\":5},\"b\":{\"y\":2,\"z\":3}}") [str "a", str "w"] = .done json none ∧
    Get json [str "a", str "w"] = .err (.keyNotFound (str "w")) := by
  obtain ⟨json, h1, h2⟩ := C19_deleted_text_partial
    ⟨[], .obj [] [Sample.mem (str "a") (.obj [] [Sample.mem (str "x") (.lit (str "1")), Sample.mem (str "w") (.lit (str "5"))]),
      Sample.mem (str "b") (.obj [] [Sample.mem (str "y") (.lit (str "2")), Sample.mem (str "z") (.lit (str "3"))])], []⟩ [str "a"] (str "w") []
    [Sample.mem (str "x") (.lit (str "1")), Sample.mem (str "w") (.lit (str "5"))] 1
    (by decide +kernel) (by decide +kernel) (by decide +kernel) (by decide +kernel) (by decide +kernel)
  have e : json = str "{\"a\":{\"x\":1},\"b\":{\"y\":2,\"z\":3}}" := by
    have : Mut.done (str "{\"a\":{\"x\":1},\"b\":{\"y\":2,\"z\":3}}") none = .done json none := by rw [← h1]; decide +kernel
    injection this with this; exact this.symm
  subst e
  exact ⟨_, by decide +kernel, h2 (by decide +kernel) (by decide +kernel) []⟩

/-- **C19 is false in general**: in `{"a":{"x":1},"b":{"x":2}}` after deleting `a/x` the path
`a/x` gives `2`. -/
theorem C19_fails : Delete (str "{\"a\":{\"x\":1},\"b\":{\"x\":2}}") [str "a", str "x"] = .done (str "{\"a\":{},\"b\":{\"x\":2}}") none ∧
    Get (str "{\"a\":{},\"b\":{\"x\":2}}") [str "a", str "x"] = .ok (str "2") := by decide +kernel

end Jin
