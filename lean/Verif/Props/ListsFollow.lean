import Verif.Props.Algebra
import Verif.Props.Iterate
import Verif.Props.FormatMut
/-!
# Property C126: key lists and elements follow the mutations

What `GetKeys` and `IterateArray` list before and after a mutation that succeeds.
-/

namespace Jin
open Spec

/-- The elements that `IterateArray` hands out. -/
def listed (json : Bytes) (p : List Bytes) : IterRes (List Bytes) := IterateArray json (fun u v => .ret (u ++ [v]) true none) p []

/-! ### Lists of entries -/

theorem obj_ne {d : Doc} {p : List Text} {w : Json} (hd : d.wf) (h : d.get? p = some w) (hk : w.kind = .obj) (he : p ≠ [] ∨ w.entries ≠ []) :
    d.render ≠ str "{}" := by
  have hb : str "{}" = bObj := by decide +kernel
  rw [hb]
  by_cases hp : p = []
  · cases w with
    | obj g ms =>
      obtain ⟨i, -, hseg, -⟩ := valueStart_ok hd h
      refine ne_bObj hseg (obj_len ?_)
      rintro rfl
      exact (he.resolve_left (not_not_intro hp)) rfl
    | _ => cases hk
  · intro e
    obtain ⟨q, qs, rfl⟩ := List.exists_cons_of_ne_nil hp
    obtain ⟨lead, root, trail⟩ := d
    simp only [Doc.get?, Json.get?] at h
    cases root with
    | lit t => cases h
    | str t => cases h
    | arr g es =>
      have : (91 : UInt8) ∈ (⟨lead, .arr g es, trail⟩ : Doc).render := by
        cases es <;> simp [Doc.render, Json.render]
      rw [e] at this
      simp [bObj] at this
    | obj g ms =>
      cases ms with
      | nil => simp [Json.child?, memberIdx] at h
      | cons m ms =>
        have : (34 : UInt8) ∈ (⟨lead, .obj g (m :: ms), trail⟩ : Doc).render := by
          cases ms <;> simp [Doc.render, Json.render, renderMembers]
        rw [e] at this
        simp [bObj] at this

/-- The keys of the entries. -/
def keyList (w : Json) : List Text := w.entries.map fun e => e.key.getD []

theorem getKeys_list {d : Doc} {p : List Text} {w : Json} (hd : d.wf) (h : d.get? p = some w) (hk : w.kind = .obj) (hne : d.render ≠ str "{}") :
    GetKeys d.render p = .ok (keyList w) := by
  cases w with
  | obj g ms => rw [C32_getKeys_partial hd h hne]; simp [keyList, Json.entries, Entry.key, Function.comp_def]
  | _ => cases hk

theorem getKeys_ok {d : Doc} {p : List Text} {w : Json} {ks : List Bytes} (hd : d.wf) (h : d.get? p = some w) (hk : GetKeys d.render p = .ok ks) :
    w.kind = .obj ∧ ks = keyList w := by
  have ho : w.kind = .obj := by
    refine Classical.byContradiction fun ho => ?_
    rw [C32_other hd h ho] at hk
    cases hk
  refine ⟨ho, ?_⟩
  have hne : d.render ≠ str "{}" := by
    intro e
    rw [e, show str "{}" = bObj by decide +kernel] at hk
    simp [GetKeys, kvRun, Out.map] at hk
  rw [getKeys_list hd h ho hne] at hk
  injection hk with hk
  exact hk.symm

theorem listed_arr {d : Doc} {p : List Text} {w : Json} (hd : d.wf) (h : d.get? p = some w) (hk : w.kind = .arr) (he : w.entries ≠ []) :
    listed d.render p = .done (w.entries.map fun e => e.val.content) none := by
  cases w with
  | arr g es =>
    have : es ≠ [] := by rintro rfl; exact he rfl
    rw [listed, C30_collect hd h this]
    simp [Json.entries, Entry.val, Function.comp_def]
  | _ => cases hk

theorem map_eraseIdx' {α β : Type} (f : α → β) (l : List α) (n : Nat) : (l.eraseIdx n).map f = (l.map f).eraseIdx n := by
  simp [List.eraseIdx_eq_take_drop_succ, List.map_take, List.map_drop]

theorem keyList_mem {w : Json} (hk : w.kind = .obj) {k : Text} : k ∈ keyList w ↔ ∃ e ∈ w.entries, e.key = some k := by
  cases w with
  | obj g ms =>
    simp only [keyList, Json.entries, List.map_map, List.mem_map, Function.comp_def, Entry.key, Option.getD_some]
    constructor
    · rintro ⟨m, hm, rfl⟩; exact ⟨_, ⟨m, hm, rfl⟩, rfl⟩
    · rintro ⟨_, ⟨m, hm, rfl⟩, he⟩; exact ⟨m, hm, by simpa using he⟩
  | _ => cases hk

theorem keys_modify {q new : Text} : ∀ {ms : List (Member Json)} {n : Nat}, memberIdx ms q = some n →
    (ms.modify n fun m => { m with key := new }).map Member.key = (ms.map Member.key).replace q new
  | [], n, hn => by simp [memberIdx] at hn
  | m :: ms, n, hn => by
    by_cases he : m.key = q
    · have : n = 0 := by
        simp [memberIdx, List.findIdx?_cons, he] at hn
        exact hn.symm
      subst this
      simp [he]
    · obtain ⟨n', rfl, hn'⟩ : ∃ n', n = n' + 1 ∧ memberIdx ms q = some n' := by
        simp [memberIdx, List.findIdx?_cons, he] at hn
        obtain ⟨a, b, c⟩ := hn
        exact ⟨a, c.symm, b⟩
      have hb : (q == m.key) = false := by simpa using fun e => he e.symm
      simp [List.replace_cons, hb, keys_modify hn']

/-! ### Keys -/

variable (d : Doc) (p : List Text)

/-- **C126** After `AddKeyValue` succeeds, the key list has the new key at its end. -/
theorem C126_addKeyValue (w v : Json) (k : Text) (ks : List Bytes) (t : Bytes) (hd : d.wf) (h : d.get? p = some w) (hks : strOk k) (hv : v.wf)
    (hk : GetKeys d.render p = .ok ks) (ha : AddKeyValue d.render k (some v.render) p = .done t none) :
    k ∉ ks ∧ GetKeys t p = .ok (ks ++ [k]) := by
  obtain ⟨ho, rfl⟩ := getKeys_ok hd h hk
  cases w with
  | obj g ms =>
    have hnew : ∀ m ∈ ms, m.key ≠ k := by
      intro m hm he
      rw [C22_addKeyValue_exists d p g ms k (some v.render) hd h ⟨m, hm, he⟩] at ha
      injection ha with _ ha
      cases ha
    refine ⟨fun hm => ?_, ?_⟩
    · obtain ⟨e, he, hek⟩ := (keyList_mem ho).1 hm
      simp only [Json.entries, List.mem_map] at he
      obtain ⟨m, hm, rfl⟩ := he
      exact hnew m hm (by simpa [Entry.key] using hek)
    · rcases C21_all_or_nothing_partial d p g ms k v hd h hnew hks hv _ _ ha with ⟨h0, -⟩ | ⟨-, w', rfl, h2, h3, h4, -⟩
      · exact absurd rfl h0
      · have h' : (d.set p w').get? p = some w' := get_upd p h fun _ => w'
        rw [getKeys_list h2 h' h3 (obj_ne h2 h' h3 (.inr (by rw [h4]; simp)))]
        simp [keyList, h4, Entry.key]
  | _ => cases ho

/-- **C126, part**: after `Delete` of a member, its key is gone from the list once, unless it was the only member of the root. -/
theorem C126_delete_partial (w c : Json) (q : Text) (ks : List Bytes) (hd : d.wf) (h : d.get? p = some w) (hq : d.get? (p ++ [q]) = some c)
    (hk : GetKeys d.render p = .ok ks) (h0 : p ≠ [] ∨ ks ≠ [q]) :
    q ∈ ks ∧ ∃ t, Delete d.render (p ++ [q]) = .done t none ∧ GetKeys t p = .ok (ks.erase q) := by
  obtain ⟨ho, rfl⟩ := getKeys_ok hd h hk
  obtain ⟨n, w', h1, -, h2, h3, h4, h5⟩ := C16_delete_exact d p q w c hd h hq
  have h' : (d.set p w').get? p = some w' := get_upd p h fun _ => w'
  have hn : w.entries.findIdx? (fun e => e.key == some q) = some n := by rw [← slot_obj ho]; exact h1
  have hn' : (keyList w).findIdx? (fun k => k == q) = some n := by
    rw [← hn, keyList, List.findIdx?_map]
    cases w with
    | obj g ms => simp only [Json.entries, List.findIdx?_map]; congr 1
    | _ => cases ho
  have hi : List.idxOf? q (keyList w) = some n := by rw [List.idxOf?]; exact hn'
  have hm : q ∈ keyList w := by
    rw [List.findIdx?_eq_some_iff_getElem] at hn'
    obtain ⟨a, b, -⟩ := hn'
    have : (keyList w)[n] = q := by simpa using b
    exact this ▸ List.getElem_mem a
  have he : (keyList w).eraseIdx n = (keyList w).erase q := by
    rw [List.erase_eq_eraseIdx, hi]
  refine ⟨hm, _, h2, ?_⟩
  have hke : keyList w' = (keyList w).erase q := by rw [keyList, h5, map_eraseIdx']; exact he
  rw [getKeys_list h3 h' (h4.trans ho) (obj_ne h3 h' (h4.trans ho) ?_), hke]
  refine h0.imp id fun h0 he0 => ?_
  have hz : keyList w' = [] := by rw [keyList, he0]; rfl
  rw [hke] at hz
  have hl := congrArg List.length hz
  rw [List.length_erase_of_mem hm] at hl
  obtain ⟨x, hx⟩ : ∃ x, keyList w = [x] := by
    match hw : keyList w, hl, hm with
    | [x], _, _ => exact ⟨x, rfl⟩
    | x :: y :: l, hl, _ => simp at hl
    | [], _, hm => simp at hm
  rw [hx] at h0 hm
  simp at hm
  exact h0 (by rw [hm])

/-- **C126** After `SetKey` succeeds, the first occurrence of the old key in the list is the new key. -/
theorem C126_setKey (w c : Json) (q new : Text) (ks : List Bytes) (t : Bytes) (hd : d.wf) (h : d.get? p = some w)
    (hq : d.get? (p ++ [q]) = some c) (hns : strOk new)
    (hk : GetKeys d.render p = .ok ks) (ha : SetKey d.render new (p ++ [q]) = .done t none) :
    new ∉ ks ∧ GetKeys t p = .ok (ks.replace q new) := by
  obtain ⟨ho, rfl⟩ := getKeys_ok hd h hk
  cases w with
  | obj g ms =>
    have hnew : ∀ m ∈ ms, m.key ≠ new := by
      intro m hm he
      rw [C25_setKey_exists d p q new g ms hd h (.inr ⟨m, hm, he⟩)] at ha
      injection ha with _ ha
      cases ha
    unfold Doc.get? at hq h
    rw [get_append, h, Option.bind_some, get_cons_eq, Option.bind_eq_some_iff] at hq
    obtain ⟨n, hn, -⟩ := hq
    have hn : memberIdx ms q = some n := hn
    refine ⟨fun hm => ?_, ?_⟩
    · obtain ⟨e, he, hek⟩ := (keyList_mem ho).1 hm
      simp only [Json.entries, List.mem_map] at he
      obtain ⟨m, hm, rfl⟩ := he
      exact hnew m hm (by simpa [Entry.key] using hek)
    · rcases C24_all_or_nothing_partial d p q new g ms n hd h hn hnew hns _ _ ha with ⟨h0, -⟩ | ⟨-, d', rfl, rfl, h2, -⟩
      · exact absurd rfl h0
      · have h' : (d.set p (.obj g (ms.modify n fun m => { m with key := new }))).get? p = some (.obj g (ms.modify n fun m => { m with key := new })) :=
          get_upd p h fun _ => .obj g (ms.modify n fun m => { m with key := new })
        have hne : ms ≠ [] := by rintro rfl; simp [memberIdx] at hn
        rw [getKeys_list h2 h' rfl (obj_ne h2 h' rfl (.inr (by simpa [Json.entries] using hne)))]
        congr 1
        simpa [keyList, Json.entries, Function.comp_def, Entry.key] using keys_modify hn
  | _ => cases ho

/-- **C126** `Set` below an object leaves its key list. -/
theorem C126_set (w c v : Json) (q : Text) (qs : List Text) (ks : List Bytes) (hd : d.wf) (h : d.get? p = some w)
    (hq : d.get? (p ++ q :: qs) = some c) (hv : v.wf) (hk : GetKeys d.render p = .ok ks) :
    ∃ t, Set d.render v.render (p ++ q :: qs) = .done t none ∧ GetKeys t p = .ok ks := by
  obtain ⟨ho, rfl⟩ := getKeys_ok hd h hk
  obtain ⟨a1, a2, -⟩ := C08_get_after_set d (p ++ q :: qs) c v hd (by simp) hq hv
  have e' : d.set (p ++ q :: qs) v = d.set p (w.upd (fun _ => v) (q :: qs)) := by
    simp only [Doc.set, Json.set, upd_append]
    congr 1
    exact upd_congr p h rfl
  refine ⟨_, a1, ?_⟩
  rw [e'] at a2 ⊢
  have h' : (d.set p (w.upd (fun _ => v) (q :: qs))).get? p = some (w.upd (fun _ => v) (q :: qs)) := get_upd p h fun _ => w.upd (fun _ => v) (q :: qs)
  obtain ⟨s1, s2⟩ := size_upd w (fun _ => v) q qs
  have hl : keyList (w.upd (fun _ => v) (q :: qs)) = keyList w := by
    cases w with
    | obj g ms =>
      simp only [Json.upd, Json.updChild]
      cases memberIdx ms q with
      | none => rfl
      | some n =>
        simp only [keyList, Json.entries, List.map_map, Function.comp_def, Entry.key]
        apply List.ext_getElem?
        intro i
        simp only [List.getElem?_map, List.getElem?_modify]
        split <;> cases ms[i]? <;> simp
    | _ => cases ho
  have hne : w.entries ≠ [] := by
    unfold Doc.get? at hq h
    rw [get_append, h, Option.bind_some, get_cons_eq, Option.bind_eq_some_iff] at hq
    obtain ⟨n, hn, -⟩ := hq
    intro e
    have := slot_lt hn
    rw [e] at this
    simp at this
  rw [getKeys_list a2 h' (s2.trans ho) (obj_ne a2 h' (s2.trans ho) (.inr ?_)), hl]
  intro e
  rw [size_entries, e, size_entries] at s1
  exact hne (List.eq_nil_of_length_eq_zero s1.symm)

/-! ### Elements -/

/-- **C126** After `Add`, `IterateArray` hands out the new element last. -/
theorem C126_add (w v : Json) (hd : d.wf) (h : d.get? p = some w) (hk : w.kind = .arr) (hv : v.wf) :
    ∃ t, Add d.render v.render p = .done t none ∧ listed t p = .done (w.entries.map (fun e => e.val.content) ++ [v.content]) none := by
  cases w with
  | arr g es =>
    obtain ⟨w', h1, h2, h3, h4, -⟩ := C20_add d p g es v hd h hv
    refine ⟨_, h1, ?_⟩
    rw [listed_arr h2 (get_upd p h fun _ => w') h3 (by rw [h4]; simp), h4]
    simp [Entry.val]
  | _ => cases hk

/-- **C126, part**: the elements before a mutation `xs`, and after it: `Add` appends, `Delete` of one of several takes one out, `Set` replaces
one, `Insert` before an element that is not the last one puts one in. -/
theorem C126_elements_partial (w : Json) (xs : List Bytes) (hd : d.wf) (h : d.get? p = some w) (hk : w.kind = .arr) (hw : w.entries ≠ [])
    (hx : listed d.render p = .done xs none) :
    (∀ v : Json, v.wf → ∃ t, Add d.render v.render p = .done t none ∧ listed t p = .done (xs ++ [v.content]) none) ∧
    (∀ (q : Text) (i : Nat), readIndex q = some i → i < xs.length → 1 < xs.length →
      ∃ t, Delete d.render (p ++ [q]) = .done t none ∧ listed t p = .done (xs.eraseIdx i) none) ∧
    (∀ (v : Json) (q : Text) (i : Nat), v.wf → readIndex q = some i → i < xs.length →
      ∃ t, Set d.render v.render (p ++ [q]) = .done t none ∧ listed t p = .done (xs.set i v.content) none) ∧
    (∀ (v : Json) (n : Nat), v.wf → n < xs.length → (n : Int) ≤ 9223372036854775807 → n + 1 < xs.length ∨ n = 0 →
      ∃ t, Insert d.render n v.render p = .done t none ∧ listed t p = .done (xs.take n ++ v.content :: xs.drop n) none) := by
  rw [listed_arr hd h hk hw] at hx
  injection hx with hx
  subst hx
  cases w with
  | arr g es =>
    have hg : ∀ {q : Text} {i : Nat}, readIndex q = some i → i < es.length → ∃ c, d.get? (p ++ [q]) = some c := by
      intro q i hq hi
      refine ⟨es[i].v, ?_⟩
      unfold Doc.get? at h ⊢
      rw [get_append, h, Option.bind_some]
      simp [Json.get?, Json.child?, hq, List.getElem?_eq_getElem hi]
    refine ⟨fun v hv => C126_add d p _ v hd h rfl hv, fun q i hq hi h1 => ?_, fun v q i hv hq hi => ?_, fun v n hv hn hb hok => ?_⟩
    · simp only [List.length_map, Json.entries] at hi h1
      obtain ⟨c, hc⟩ := hg hq hi
      obtain ⟨n, w', s1, -, a1, a2, a3, a4⟩ := C16_delete_exact d p q _ c hd h hc
      have hn : n = i := by
        rw [slot_arr rfl, hq] at s1
        simp [Option.filter] at s1
        exact s1.2.symm
      subst hn
      refine ⟨_, a1, ?_⟩
      rw [listed_arr a2 (get_upd p h fun _ => w') a3 ?_, a4, map_eraseIdx']
      intro e
      have := congrArg List.length e
      rw [a4, List.length_eraseIdx, if_pos (by simpa [Json.entries] using hi)] at this
      simp [Json.entries] at this
      omega
    · simp only [List.length_map, Json.entries] at hi
      obtain ⟨c, hc⟩ := hg hq hi
      obtain ⟨a1, a2, -⟩ := C08_get_after_set d (p ++ [q]) c v hd (by simp) hc hv
      have e' : d.set (p ++ [q]) v = d.set p (.arr g (es.modify i fun e => { e with v := v })) := by
        simp only [Doc.set, Json.set, upd_append]
        congr 1
        refine upd_congr p h ?_
        simp [Json.upd, Json.updChild, hq]
      refine ⟨_, a1, ?_⟩
      rw [e'] at a2 ⊢
      rw [listed_arr a2 (get_upd p h fun _ => _) rfl (by
        intro e
        have := congrArg List.length e
        simp [Json.entries] at this
        subst this
        simp at hi)]
      congr 1
      simp only [Json.entries, List.map_map, Function.comp_def, Entry.val]
      apply List.ext_getElem?
      intro j
      simp only [List.getElem?_map, List.getElem?_modify, List.getElem?_set, List.length_map]
      by_cases hj : i = j
      · subst hj
        simp [hi]
      · simp [hj]
    · simp only [List.length_map, Json.entries] at hn hok
      obtain ⟨w', a1, a2, a3, a4, -⟩ := C23_insert_partial d p g es n v hd h hn hb hv (hok.imp id .inl)
      refine ⟨_, a1, ?_⟩
      rw [listed_arr a2 (get_upd p h fun _ => w') a3 (by rw [a4]; simp), a4]
      simp [Entry.val, List.map_take, List.map_drop]
  | _ => cases hk

/-- The full statement for `Delete` of a member and of an element, without the restrictions of the partial theorems. -/
def C126_statement : Prop := ∀ (d : Doc) (p : List Text) (q : Text) (c : Json) (t : Bytes), d.wf → d.get? (p ++ [q]) = some c →
    Delete d.render (p ++ [q]) = .done t none →
    (∀ ks, GetKeys d.render p = .ok ks → GetKeys t p = .ok (ks.erase q)) ∧
    (∀ xs i, listed d.render p = .done xs none → readIndex q = some i → listed t p = .done (xs.eraseIdx i) none)

/-- **C126 fails**: after the only member of the root is deleted `GetKeys` gives an error, and after the only element of a nested array is
deleted `IterateArray` hands out an empty element. `Insert` before the last element may leave an empty element and glue two. -/
theorem C126_fails : ¬ C126_statement ∧
    (GetKeys (str "{\"a\":1}") [] = .ok [str "a"] ∧ Delete (str "{\"a\":1}") [str "a"] = .done (str "{}") none ∧ GetKeys (str "{}") [] = .err .empty) ∧
    (listed (str "{\"a\":[1]}") [str "a"] = .done [str "1"] none ∧ Delete (str "{\"a\":[1]}") [str "a", str "0"] = .done (str "{\"a\":[]}") none ∧
      listed (str "{\"a\":[]}") [str "a"] = .done [[]] none) ∧
    (listed (str "[1, 2]") [] = .done [str "1", str "2"] none ∧ Insert (str "[1, 2]") 1 (str "7") [] = .done (str "[1,,7 2]") none ∧
      listed (str "[1,,7 2]") [] = .done [str "1", [], str "7 2"] none) := by
  have e1 : GetKeys (str "{\"a\":1}") [] = .ok [str "a"] ∧ Delete (str "{\"a\":1}") [str "a"] = .done (str "{}") none ∧
      GetKeys (str "{}") [] = .err .empty := by decide +kernel
  refine ⟨fun h => ?_, e1, by decide +kernel, by decide +kernel⟩
  have hr : (⟨[], .obj [] [⟨[], str "a", [], [], .lit (str "1"), []⟩], []⟩ : Doc).render = str "{\"a\":1}" := by decide +kernel
  have := h ⟨[], .obj [] [⟨[], str "a", [], [], .lit (str "1"), []⟩], []⟩ [] (str "a") (.lit (str "1")) (str "{}") (by decide +kernel) (by decide +kernel)
  rw [hr] at this
  have := (this e1.2.1).1 [str "a"] e1.1
  rw [e1.2.2] at this
  cases this

/-! Cases: the sample document. -/

example : GetKeys Sample.doc.render [] = .ok [str "a", str "b\\\"]", str "a", str "o"] ∧
    ∃ t, Delete Sample.doc.render [str "a"] = .done t none ∧ GetKeys t [] = .ok [str "b\\\"]", str "a", str "o"] := by
  have e : GetKeys Sample.doc.render [] = .ok [str "a", str "b\\\"]", str "a", str "o"] := by decide +kernel
  obtain ⟨-, t, h1, h2⟩ := C126_delete_partial Sample.doc [] _ (.lit (str "1")) (str "a") _ Sample.doc_wf Sample.get_root (by decide +kernel) e
    (.inr (by decide +kernel))
  exact ⟨e, t, h1, h2.trans (by decide +kernel)⟩

example : listed Sample.doc.render Sample.toArr = .done [str "10", str "x]\\\\", str "{\"k\":null}", str "[]"] none ∧
    ∃ t, Insert Sample.doc.render 1 (str "7") Sample.toArr = .done t none ∧
      listed t Sample.toArr = .done [str "10", str "7", str "x]\\\\", str "{\"k\":null}", str "[]"] none := by
  have e : listed Sample.doc.render Sample.toArr = .done [str "10", str "x]\\\\", str "{\"k\":null}", str "[]"] none := by decide +kernel
  exact ⟨e, (C126_elements_partial Sample.doc Sample.toArr _ _ Sample.doc_wf Sample.get_arr rfl (by decide) e).2.2.2 (.lit (str "7")) 1
    (by decide +kernel) (by decide +kernel) (by decide) (.inl (by decide +kernel))⟩

end Jin
