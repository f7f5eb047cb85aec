import Verif.Props.Iterate
import Verif.Props.Bulk
import Verif.Props.Types
import Verif.Props.Array
/-!
# Props.Agree — C132: the readers of a container agree
-/

namespace Jin
open Spec

theorem nodup_find {ms : List (Member Json)} (hn : (ms.map Member.key).Nodup) {i : Nat} {m : Member Json} (h : ms[i]? = some m) :
    memberIdx ms m.key = some i := by
  obtain ⟨hi, rfl⟩ := List.getElem?_eq_some_iff.1 h
  unfold memberIdx
  rw [List.findIdx?_eq_some_iff_getElem]
  refine ⟨hi, by simp, fun j hj => ?_⟩
  have := (List.pairwise_iff_getElem.1 hn) j i (by simp; omega) (by simpa using hi) hj
  simpa using this

/-- **C132** Objects: the keys of `GetKeys` and the values of `GetValues` are what `GetKeysValues` returns, what `GetAll` and `GetAllMap` return for
those keys, what `IterateKeyValue` hands out, and `Length` counts them. For objects with distinct keys in which no value of one byte is followed by white
space; `C132_fails` shows that this is needed. -/
theorem C132_object_partial {d : Doc} {p : List Text} {g : Text} {ms : List (Member Json)} (hd : d.wf) (h : d.get? p = some (.obj g ms)) (hm : ms ≠ [])
    (hn : (ms.map Member.key).Nodup) (hl : ∀ m ∈ ms, m.loose = false) :
    ∃ ks vs, GetKeys d.render p = .ok ks ∧ GetValues d.render p = .ok vs ∧ ks.length = ms.length ∧ vs.length = ms.length ∧ GetKeysValues d.render p = .ok (ks, vs) ∧
      GetAll d.render ks p = .ok vs ∧ (∃ m, GetAllMap d.render ks p = .ok m ∧ ∀ i : Nat, ∀ k, ks[i]? = some k → m.get? k = vs[i]?) ∧
      IterateKeyValue d.render (fun (u : List (Bytes × Bytes)) k v => .ret (u ++ [(k, v)]) true none) p [] = .done (ks.zip vs) none ∧
      Length d.render p = .ok ks.length := by
  obtain ⟨h1, h2⟩ := C33_getValues_partial hd h hm hl
  have hk : GetKeys d.render p = .ok (ms.map Member.key) := by
    obtain ⟨ks, vs, a1, a2, -, -⟩ := C33_agree hd h hm
    rw [h2] at a1
    cases a1
    exact a2
  have hget : ∀ (i : Nat) (m : Member Json), ms[i]? = some m → Get d.render (p ++ [m.key]) = .ok m.v.content := by
    intro i m hi
    refine get_ok hd (by simp) (w := m.v) ?_
    unfold Doc.get? at h ⊢
    rw [get_append, h, Option.bind_some, Json.get?, Json.child?, nodup_find hn hi]
    simp [hi, Json.get?]
  have hall : GetAll d.render (ms.map Member.key) p = .ok (ms.map fun m => m.v.content) := by
    rw [C35_getAll_ok, List.map_map, List.map_map]
    refine List.map_congr_left fun m hm => ?_
    obtain ⟨i, hi, rfl⟩ := List.mem_iff_getElem.1 hm
    exact hget i _ (List.getElem?_eq_getElem hi)
  refine ⟨_, _, hk, h1, by simp, by simp, h2, hall, ?_, ?_, ?_⟩
  · obtain ⟨m, hmap⟩ := (C35_getAllMap_err d.render p (ms.map Member.key)).2.2 ⟨_, hall⟩
    refine ⟨m, hmap, fun i k hi => ?_⟩
    rw [List.getElem?_map, Option.map_eq_some_iff] at hi
    obtain ⟨x, hx, rfl⟩ := hi
    obtain ⟨v, hv1, hv2⟩ := (C35_getAllMap_ok _ _ _ _ hmap).1 x.key (List.mem_map.2 ⟨x, List.mem_of_getElem? hx, rfl⟩)
    rw [hget i x hx] at hv1
    cases hv1
    rw [hv2, List.getElem?_map, hx]
    rfl
  · rw [C31_collect_partial hd h hm hl]
    congr 1
    induction ms with
    | nil => rfl
    | cons m ms ih => simp [List.zip_map']
  · by_cases hp : p = []
    · subst hp
      have hr : d.root = .obj g ms := by simpa [Doc.get?, Json.get?] using h
      rw [C36_length_root_partial hd (by rw [hr]; rfl), hr]
      simp [Json.pinch, Json.size]
    · rw [C36_length_path_partial hd h rfl hp]
      simp [Json.size]

/-- **C132** Arrays: what `IterateArray` hands out is what `Get` returns for each index, what `GetStringArray` returns, and `Length` counts it. For arrays
in which no element of one byte directly behind a bracket or comma is followed by white space; for the whole text, without white space around it and not
an array of one element of one byte. -/
theorem C132_array_partial {d : Doc} {p : List Text} {g : Text} {es : List (Elem Json)} (hd : d.wf) (h : d.get? p = some (.arr g es)) (he : es ≠ [])
    (hp : p = [] → d.lead = [] ∧ d.trail = [] ∧ (Json.arr g es).pinch = false) (hs : ∀ e ∈ es, e.snug) :
    ∃ vs, vs.length = es.length ∧ IterateArray d.render (fun (u : List Bytes) v => .ret (u ++ [v]) true none) p [] = .done vs none ∧
      (∀ (i : Nat) v, (i : Int) ≤ 9223372036854775807 → vs[i]? = some v → Get d.render (p ++ [itoa i]) = .ok v) ∧
      GetStringArray d.render p = .ok vs ∧ Length d.render p = .ok vs.length := by
  refine ⟨_, by simp, C30_collect hd h he, fun i v hi hv => ?_, C61_strings_partial hd h he (fun e => ⟨(hp e).1, (hp e).2.1⟩) hs, ?_⟩
  · rw [List.getElem?_map, Option.map_eq_some_iff] at hv
    obtain ⟨e, hv, rfl⟩ := hv
    refine get_ok hd (by simp) (w := e.v) ?_
    unfold Doc.get? at h ⊢
    rw [get_append, h, Option.bind_some, Json.get?, Json.child?, readIndex_itoa hi]
    simp [hv, Json.get?]
  · by_cases hp' : p = []
    · subst hp'
      have hr : d.root = .arr g es := by simpa [Doc.get?, Json.get?] using h
      rw [C36_length_root_partial hd (by rw [hr]; rfl), hr, (hp rfl).2.2]
      simp [Json.size]
    · rw [C36_length_path_partial hd h rfl hp']
      simp [Json.size]

theorem getAll_keys {d : Doc} {p : List Text} {g : Text} {ms : List (Member Json)} (hd : d.wf) (h : d.get? p = some (.obj g ms))
    (hn : (ms.map Member.key).Nodup) : GetAll d.render (ms.map Member.key) p = .ok (ms.map fun m => m.v.content) := by
  rw [C35_getAll_ok, List.map_map, List.map_map]
  refine List.map_congr_left fun m hm => ?_
  obtain ⟨i, hi, rfl⟩ := List.mem_iff_getElem.1 hm
  refine get_ok hd (by simp) (w := ms[i].v) ?_
  unfold Doc.get? at h ⊢
  rw [get_append, h, Option.bind_some, Json.get?, Json.child?, nodup_find hn (List.getElem?_eq_getElem hi)]
  simp [hi, Json.get?]

theorem cvsSeen_iff {l r : Text} {v : Json} (hv : v.wf) : cvsSeen l v r = v.content ↔ (l = [] → v.render.length = 1 → r = []) := by
  refine ⟨fun h h1 h2 => ?_, fun h => cvsSeen_snug hv h⟩
  rw [cvsSeen, if_pos ⟨h1, h2⟩, (one_byte hv h2).1] at h
  have := congrArg List.length h
  cases r with
  | nil => rfl
  | cons c r => simp at this

/-- **C132** The condition on white space is the exact one for `GetValues` and `GetAll`: they agree on an object with distinct keys if and only if no value
of one byte that directly follows its colon is followed by white space. -/
theorem C132_values_iff {d : Doc} {p : List Text} {g : Text} {ms : List (Member Json)} (hd : d.wf) (h : d.get? p = some (.obj g ms)) (hm : ms ≠ [])
    (hn : (ms.map Member.key).Nodup) :
    (∃ ks vs, GetKeys d.render p = .ok ks ∧ GetValues d.render p = .ok vs ∧ GetAll d.render ks p = .ok vs) ↔
      ∀ m ∈ ms, m.l2 = [] → m.v.render.length = 1 → m.r = [] := by
  obtain ⟨_, -, -, hw, -⟩ := valueStart_ok hd h
  have hwf : ∀ m ∈ ms, m.v.wf := by
    have := (wf_obj.1 hw).2
    clear h hm hn hw
    induction ms with
    | nil => simp
    | cons m ms ih =>
      rw [wfMembers_cons] at this
      intro x hx
      rcases List.mem_cons.1 hx with rfl | hx
      · exact this.2.2.2.2.1
      · exact ih this.2.2.2.2.2.2 x hx
  have hk : GetKeys d.render p = .ok (ms.map Member.key) := by
    obtain ⟨ks, vs, a1, a2, -, -⟩ := C33_agree hd h hm
    rw [C33_getKeysValues_exact_partial hd h hm] at a1
    cases a1
    exact a2
  constructor
  · rintro ⟨ks, vs, h1, h2, h3⟩ m hmem
    rw [hk] at h1
    cases h1
    rw [getAll_keys hd h hn] at h3
    cases h3
    rw [C33_getValues_exact_partial hd h hm] at h2
    injection h2 with h2
    exact (cvsSeen_iff (hwf m hmem)).1 (List.map_inj_left.1 h2 m hmem)
  · intro hs
    refine ⟨_, _, hk, C33_getValues_exact_partial hd h hm, ?_⟩
    rw [getAll_keys hd h hn]
    congr 1
    exact List.map_congr_left fun m hmem => ((cvsSeen_iff (hwf m hmem)).2 (hs m hmem)).symm

/-- **C132** … and for `IterateArray` and `GetStringArray`: they agree if and only if no element of one byte directly behind a bracket or comma is followed
by white space. -/
theorem C132_strings_iff {d : Doc} {p : List Text} {g : Text} {es : List (Elem Json)} (hd : d.wf) (h : d.get? p = some (.arr g es)) (he : es ≠ [])
    (hp : p = [] → d.lead = [] ∧ d.trail = []) :
    (∃ vs, IterateArray d.render (fun (u : List Bytes) v => .ret (u ++ [v]) true none) p [] = .done vs none ∧ GetStringArray d.render p = .ok vs) ↔
      ∀ e ∈ es, e.l = [] → e.v.render.length = 1 → e.r = [] := by
  have hex := (C61_exact (F := Unit) ⟨fun _ => none, fun _ => []⟩ hd h he hp).1
  constructor
  · rintro ⟨vs, h1, h2⟩ e hmem
    rw [C30_collect hd h he] at h1
    cases h1
    rw [hex] at h2
    injection h2 with h2
    have h3 := List.map_inj_left.1 h2 e hmem
    by_cases hs : e.snug
    · exact hs
    · rw [Elem.seen, if_neg hs] at h3
      intro _ h5
      rw [(one_byte (elems_wf hd h e hmem).2.1 h5).1] at h3
      have := congrArg List.length h3
      cases hr : e.r with
      | nil => rfl
      | cons c r => simp [hr] at this
  · intro hs
    exact ⟨_, C30_collect hd h he, C61_strings_partial hd h he hp hs⟩

/-- **C132 does not hold of every object**: in `{"a":1 ,"b":2}` the first value of `GetValues` is `1` with a space, and that of `GetAll` is `1`. -/
theorem C132_fails : ∃ d : Doc, ∃ g ms, d.wf ∧ d.get? [] = some (.obj g ms) ∧ (ms.map Member.key).Nodup ∧
    GetKeys d.render [] = .ok [str "a", str "b"] ∧ GetValues d.render [] = .ok [str "1 ", str "2"] ∧
    GetAll d.render [str "a", str "b"] [] = .ok [str "1", str "2"] :=
  ⟨Sample.loose, [], [⟨[], str "a", [], [], .lit (str "1"), str " "⟩, Sample.mem (str "b") (.lit (str "2"))], by decide +kernel, by decide +kernel,
    by decide +kernel, by decide +kernel, by decide +kernel, by decide +kernel⟩

/-- … nor of every array: of `[1 ,2]` the first element of `GetStringArray` has a space, and that of `IterateArray` has none; of `[5]` the length is 0. -/
theorem C132_array_fails : (∃ d : Doc, d.wf ∧ d.render = str "{\"a\":[1 ,2]}" ∧ GetStringArray d.render [str "a"] = .ok [str "1 ", str "2"] ∧
      Get d.render [str "a", str "0"] = .ok (str "1")) ∧
    ∃ d : Doc, d.wf ∧ d.render = str "[5]" ∧ GetStringArray d.render [] = .ok [str "5"] ∧ Length d.render [] = .ok 0 :=
  ⟨⟨⟨[], .obj [] [Sample.mem (str "a") (.arr [] [⟨[], .lit (str "1"), str " "⟩, Sample.el (.lit (str "2"))])], []⟩, by decide +kernel, by decide +kernel,
      by decide +kernel, by decide +kernel⟩,
    ⟨[], .arr [] [Sample.el (.lit (str "5"))], []⟩, by decide +kernel, by decide +kernel, by decide +kernel, by decide +kernel⟩

/-- Cases of the hypotheses. -/
example : ∃ ks vs, GetKeys Sample.doc.render Sample.toObj = .ok ks ∧ GetValues Sample.doc.render Sample.toObj = .ok vs ∧
    GetAll Sample.doc.render ks Sample.toObj = .ok vs ∧ 2 ≤ ks.length := by
  obtain ⟨ks, vs, h1, h2, -, -, -, h3, -, -, -⟩ := C132_object_partial Sample.doc_wf Sample.get_obj (by decide +kernel) (by decide +kernel) (by decide +kernel)
  refine ⟨ks, vs, h1, h2, h3, ?_⟩
  rw [C32_getKeys_partial Sample.doc_wf Sample.get_obj (by decide +kernel)] at h1
  cases h1
  decide +kernel

example : ∃ vs, 2 ≤ vs.length ∧ IterateArray Sample.doc.render (fun (u : List Bytes) v => .ret (u ++ [v]) true none) Sample.toArr [] = .done vs none ∧
      GetStringArray Sample.doc.render Sample.toArr = .ok vs ∧ Length Sample.doc.render Sample.toArr = .ok vs.length := by
  obtain ⟨vs, h0, h1, -, h2, h3⟩ :=
    C132_array_partial Sample.doc_wf Sample.get_arr (by decide +kernel) (by intro h; revert h; decide +kernel) (by decide +kernel)
  exact ⟨vs, by rw [h0]; decide +kernel, h1, h2, h3⟩

example : ¬ ∃ ks vs, GetKeys Sample.loose.render [] = .ok ks ∧ GetValues Sample.loose.render [] = .ok vs ∧ GetAll Sample.loose.render ks [] = .ok vs := by
  rw [C132_values_iff (g := []) (ms := [⟨[], str "a", [], [], .lit (str "1"), str " "⟩, Sample.mem (str "b") (.lit (str "2"))]) (by decide +kernel)
    (by decide +kernel) (by decide +kernel) (by decide +kernel)]
  decide +kernel

example : ∃ vs, IterateArray Sample.doc.render (fun (u : List Bytes) v => .ret (u ++ [v]) true none) Sample.toArr [] = .done vs none ∧
    GetStringArray Sample.doc.render Sample.toArr = .ok vs :=
  (C132_strings_iff Sample.doc_wf Sample.get_arr (by decide +kernel) (by intro h; revert h; decide +kernel)).2 (by decide +kernel)

end Jin
