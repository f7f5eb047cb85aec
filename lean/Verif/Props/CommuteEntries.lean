import Verif.Props.TextCommuteSame
import Verif.Props.FormatSession
/-!
# Props.CommuteEntries — C138: changes of the entries of one container in either order
-/

namespace Jin
open Spec

theorem find_modify {k : Text} {c' : Plain} : ∀ {ms : List (Text × Plain)} {x : Text × Plain}, ms.find? (fun m => m.1 == k) = some x →
    ∃ n, ms.findIdx? (fun m => m.1 == k) = some n ∧ ((ms.modify n fun m => (m.1, c')).find? fun m => m.1 == k) = some (x.1, c')
  | [], _, h => by cases h
  | m :: ms, x, h => by
    by_cases hk : m.1 == k
    · rw [List.find?_cons, hk] at h
      cases h
      exact ⟨0, by simp [List.findIdx?_cons, hk], by simp [hk]⟩
    · have hk' : (m.1 == k) = false := by simpa using hk
      rw [List.find?_cons, hk'] at h
      obtain ⟨n, h1, h2⟩ := find_modify (c' := c') h
      exact ⟨n + 1, by simp [List.findIdx?_cons, hk', h1], by simpa [List.find?_cons, hk'] using h2⟩

theorem child_setChild {t c c' : Plain} {k : Text} (h : t.child? k = some c) : (t.setChild k c').child? k = some c' := by
  cases t with
  | lit t => cases h
  | str t => cases h
  | arr es =>
    simp only [Plain.child?, Option.bind_eq_some_iff] at h
    obtain ⟨n, hn, h⟩ := h
    obtain ⟨hl, -⟩ := List.getElem?_eq_some_iff.1 h
    simp [Plain.setChild, Plain.child?, hn, hl]
  | obj ms =>
    simp only [Plain.child?, Option.map_eq_some_iff] at h
    obtain ⟨x, hx, rfl⟩ := h
    obtain ⟨n, h1, h2⟩ := find_modify (c' := c') hx
    simp only [Plain.setChild, Plain.child?, h1, h2]
    rfl

/-- What an edit at a path does to the value there. -/
theorem edit_get {f : Plain → Option Plain} : ∀ (p : List Text) {t t' c : Plain}, t.get? p = some c → t.edit f p = some t' →
    ∃ c', f c = some c' ∧ t'.get? p = some c'
  | [], t, t', c, h, he => by cases h; exact ⟨t', he, rfl⟩
  | k :: p, t, t', c, h, he => by
    rw [Plain.get?, Option.bind_eq_some_iff] at h
    obtain ⟨x, hx, h⟩ := h
    rw [Plain.edit, hx, Option.bind_some, Option.map_eq_some_iff] at he
    obtain ⟨x', h1, rfl⟩ := he
    obtain ⟨c', h2, h3⟩ := edit_get p h h1
    exact ⟨c', h2, by rw [Plain.get?, child_setChild hx]; exact h3⟩

theorem edit_join (f : Plain → Option Plain) : ∀ (p q : List Text) (t : Plain), t.edit f (p ++ q) = t.edit (fun c => c.edit f q) p
  | [], _, _ => rfl
  | k :: p, q, t => by
    rw [List.cons_append, Plain.edit, Plain.edit]
    cases t.child? k with
    | none => rfl
    | some c => rw [Option.bind_some, Option.bind_some, edit_join f p q c]

theorem on_under (p : List Text) (o : Edit) (t : Plain) : (o.under p).on t = t.edit (fun c => o.on c) p := by
  cases o <;> simp only [Edit.under, Edit.on, edit_join]

/-- A session below `p` does to the value at `p` what it does to a value. -/
theorem under_session : ∀ {l : List Edit} {d : Doc} {p : List Text} {w : Json} {json : Bytes}, d.wf → d.get? p = some w →
    Valid w.plain (l.map fun o => (o, none)) → Does d.render (l.map (Edit.under p)) json →
    ∃ w' : Json, json = (d.set p w').render ∧ (d.set p w').wf ∧ follow w.plain (l.map fun o => (o, none)) = some w'.plain := by
  intro l
  induction l with
  | nil =>
    intro d p w json hd hw _ h
    cases h
    exact ⟨w, by rw [doc_set_self hw], by rw [doc_set_self hw]; exact hd, rfl⟩
  | cons o l ih =>
    intro d p w json hd hw hv h
    cases h with
    | cons a h =>
      obtain ⟨ho, hap, hv⟩ := valid_none.1 hv
      have hpw : d.root.plain.get? p = some w.plain := by rw [get_plain]; exact congrArg (Option.map Json.plain) hw
      obtain ⟨c, hc⟩ := applies_inside (applies_under hpw hap)
      obtain ⟨c', he⟩ := edit_under o c ho
      obtain ⟨rfl, hd1⟩ := he p d hd hc (applies_under hpw hap) _ a
      have e1 : d.set (p ++ o.at) c' = d.set p (w.set o.at c') := by
        simp only [Doc.set, Json.set, upd_append]
        congr 1
        exact upd_congr p hw rfl
      rw [e1] at a h hd1
      rcases C127_step hd (by rw [under_args]; exact ho) (applies_under hpw hap) a with ⟨-, d2, k1, k2, k3, -⟩ | ⟨k, -⟩
      · have e2 := plain_unique hd1 k2 k1
        rw [on_under] at k3
        obtain ⟨x, hx1, hx2⟩ := edit_get p hpw k3
        have hg : (d.set p (w.set o.at c')).get? p = some (w.set o.at c') := get_upd p hw fun _ => _
        have e3 : x = (w.set o.at c').plain := by
          have : (d.set p (w.set o.at c')).root.plain.get? p = some (w.set o.at c').plain := by
            rw [get_plain]; exact congrArg (Option.map Json.plain) hg
          rw [e2, hx2] at this
          exact Option.some.inj this
        subst e3
        obtain ⟨w', r1, r2, r3⟩ := ih hd1 hg (hv _ hx1) h
        rw [doc_set_set hw] at r1 r2
        exact ⟨w', r1, r2, by rw [List.map_cons, follow, hx1]; exact r3⟩
      · exact absurd rfl k

/-- **C138** Two sessions below `p` that make the same of the value there leave texts that differ in white space only. -/
theorem C138_sessions {d : Doc} {p : List Text} {w : Json} {l m : List Edit} {a b : Bytes} (hd : d.wf) (hw : d.get? p = some w)
    (hl : Valid w.plain (l.map fun o => (o, none))) (hm : Valid w.plain (m.map fun o => (o, none)))
    (he : follow w.plain (l.map fun o => (o, none)) = follow w.plain (m.map fun o => (o, none)))
    (ha : Does d.render (l.map (Edit.under p)) a) (hb : Does d.render (m.map (Edit.under p)) b) : Flatten a = Flatten b := by
  obtain ⟨w1, rfl, h2, h3⟩ := under_session hd hw hl ha
  obtain ⟨w2, rfl, k2, k3⟩ := under_session hd hw hm hb
  rw [he, k3] at h3
  have e : w2.plain = w1.plain := Option.some.inj h3
  have r1 := edit_plain (f := fun _ => some w1.plain) (w := w) (w' := w1) rfl p hw
  have r2 := edit_plain (f := fun _ => some w1.plain) (w := w) (w' := w2) (by rw [e]) p hw
  have r : (d.root.set p w1).plain = (d.root.set p w2).plain := Option.some.inj (r1.symm.trans r2)
  rw [flatten_ok h2, flatten_ok k2, text_strip, text_strip]
  exact congrArg Plain.text r

/-! ### Pairs of changes of one container -/

theorem pair_valid {w : Plain} {o u : Edit} (ho : o.args) (hu : u.args) (ha : o.applies w) (hb : ∀ w1, o.on w = some w1 → u.applies w1) :
    Valid w ([o, u].map fun o => (o, none)) :=
  valid_none.2 ⟨ho, ha, fun w1 h1 => valid_none.2 ⟨hu, hb w1 h1, fun _ _ => rfl⟩⟩

theorem pair_follow (w : Plain) (o u : Edit) : follow w ([o, u].map fun o => (o, none)) = (o.on w).bind fun w1 => u.on w1 := by
  simp only [List.map_cons, List.map_nil, follow]
  cases o.on w with
  | none => rfl
  | some w1 => simp only [Option.bind_some]; cases u.on w1 <;> rfl

theorem pair_does {o u : Edit} {json j a : Bytes} {p : List Text} (h1 : (o.under p).run json = .done j none) (h2 : (u.under p).run j = .done a none) :
    Does json ([o, u].map (Edit.under p)) a := .cons h1 (.cons h2 .nil)

theorem C138_pair {d : Doc} {p : List Text} {w : Json} {o u o' u' : Edit} {j1 j2 a b : Bytes} (hd : d.wf) (hw : d.get? p = some w)
    (ho : o.args) (hu : u.args) (ho' : o'.args) (hu' : u'.args) (ha : o.applies w.plain) (hb : ∀ w1, o.on w.plain = some w1 → u'.applies w1)
    (hc : u.applies w.plain) (hd' : ∀ w1, u.on w.plain = some w1 → o'.applies w1)
    (he : ((o.on w.plain).bind fun w1 => u'.on w1) = (u.on w.plain).bind fun w1 => o'.on w1)
    (h1 : (o.under p).run d.render = .done j1 none) (h2 : (u'.under p).run j1 = .done a none)
    (h3 : (u.under p).run d.render = .done j2 none) (h4 : (o'.under p).run j2 = .done b none) : Flatten a = Flatten b :=
  C138_sessions hd hw (pair_valid ho hu' ha hb) (pair_valid hu ho' hc hd') (by rw [pair_follow, pair_follow, he]) (pair_does h1 h2) (pair_does h3 h4)

theorem applies_delete_arr {es : List Plain} {q : Text} {n : Nat} (hq : readIndex q = some n) (hn : n < es.length) :
    (Edit.delete [] q).applies (.arr es) := by
  simp [Edit.applies, Plain.get?, Plain.child?, hq, hn]

theorem on_delete_arr {es : List Plain} {q : Text} {n : Nat} (hq : readIndex q = some n) (hn : n < es.length) :
    (Edit.delete [] q).on (.arr es) = some (.arr (es.eraseIdx n)) := by
  simp [Edit.on, Plain.edit, Plain.remove, hq, hn]

theorem applies_delete_obj {ms : List (Text × Plain)} {q : Text} (hq : ∃ m ∈ ms, m.1 = q) : (Edit.delete [] q).applies (.obj ms) := by
  obtain ⟨m, hm, rfl⟩ := hq
  simp only [Edit.applies, Plain.get?, Plain.child?, List.nil_append, Option.isSome_bind, Option.any_map]
  cases h : ms.find? fun x => x.1 == m.1 with
  | none =>
    rw [List.find?_eq_none] at h
    exact absurd (by simp) (h m hm)
  | some x => rfl

theorem on_delete_obj {ms : List (Text × Plain)} {q : Text} (hq : ∃ m ∈ ms, m.1 = q) :
    (Edit.delete [] q).on (.obj ms) = some (.obj (ms.eraseP fun m => m.1 == q)) := by
  have : ms.any (fun m => m.1 == q) := by
    obtain ⟨m, hm, rfl⟩ := hq
    exact List.any_eq_true.2 ⟨m, hm, by simp⟩
  simp [Edit.on, Plain.edit, Plain.remove, this]

theorem mem_eraseP {ms : List (Text × Plain)} {q r : Text} (hr : ∃ m ∈ ms, m.1 = r) (hne : r ≠ q) :
    ∃ m ∈ ms.eraseP (fun m => m.1 == q), m.1 = r := by
  obtain ⟨m, hm, rfl⟩ := hr
  exact ⟨m, (List.mem_eraseP_of_neg (by simpa using hne)).2 hm, rfl⟩

theorem eraseP_swap {α : Type} {f g : α → Bool} (h : ∀ x, f x = true → g x = false) : ∀ l : List α, (l.eraseP f).eraseP g = (l.eraseP g).eraseP f
  | [] => rfl
  | x :: l => by
    cases hf : f x <;> cases hg : g x
    · simp [hf, hg, eraseP_swap h l]
    · simp [hf, hg]
    · simp [hf, hg]
    · rw [h x hf] at hg; cases hg

/-- **C138** `Delete` of two elements of an array, in either order. -/
theorem C138_delete_elements {d : Doc} {p : List Text} {g : Text} {es : List (Elem Json)} {q r q' r' : Text} {n m : Nat} {j1 j2 a b : Bytes} (hd : d.wf)
    (h : d.get? p = some (.arr g es)) (hq : readIndex q = some n) (hn : n < es.length) (hr : readIndex r = some m) (hm : m < es.length) (hlt : n < m)
    (hr' : readIndex r' = some (m - 1)) (hq' : readIndex q' = some n)
    (h1 : Delete d.render (p ++ [q]) = .done j1 none) (h2 : Delete j1 (p ++ [r']) = .done a none)
    (h3 : Delete d.render (p ++ [r]) = .done j2 none) (h4 : Delete j2 (p ++ [q']) = .done b none) : Flatten a = Flatten b := by
  have hl : (plainElems es).length = es.length := by rw [plainElems_eq, List.length_map]
  have e1 := on_delete_arr (es := plainElems es) hq (by omega)
  have e2 := on_delete_arr (es := plainElems es) hr (by omega)
  have l1 : ((plainElems es).eraseIdx n).length = es.length - 1 := by rw [List.length_eraseIdx, if_pos (by omega), hl]
  have l2 : ((plainElems es).eraseIdx m).length = es.length - 1 := by rw [List.length_eraseIdx, if_pos (by omega), hl]
  refine C138_pair (o := .delete [] q) (u := .delete [] r) (o' := .delete [] q') (u' := .delete [] r') hd h rfl rfl rfl rfl
    (applies_delete_arr hq (by omega)) ?_ (applies_delete_arr hr (by omega)) ?_ ?_ (by simpa [Edit.under, Edit.run] using h1)
    (by simpa [Edit.under, Edit.run] using h2) (by simpa [Edit.under, Edit.run] using h3) (by simpa [Edit.under, Edit.run] using h4)
  · intro w1 hw1
    rw [Json.plain, e1] at hw1
    cases hw1
    exact applies_delete_arr hr' (by omega)
  · intro w1 hw1
    rw [Json.plain, e2] at hw1
    cases hw1
    exact applies_delete_arr hq' (by omega)
  · rw [Json.plain, e1, e2, Option.bind_some, Option.bind_some, on_delete_arr hr' (by omega), on_delete_arr hq' (by omega)]
    congr 2
    apply List.ext_getElem?
    intro i
    simp only [List.getElem?_eraseIdx]
    split <;> split <;> split <;> first | rfl | omega | skip
    all_goals (split <;> first | rfl | omega)

/-- **C138** `Delete` of two members of an object, in either order. -/
theorem C138_delete_members {d : Doc} {p : List Text} {g : Text} {ms : List (Member Json)} {q r : Text} {j1 j2 a b : Bytes} (hd : d.wf)
    (h : d.get? p = some (.obj g ms)) (hq : ∃ m ∈ ms, m.key = q) (hr : ∃ m ∈ ms, m.key = r) (hne : r ≠ q)
    (h1 : Delete d.render (p ++ [q]) = .done j1 none) (h2 : Delete j1 (p ++ [r]) = .done a none)
    (h3 : Delete d.render (p ++ [r]) = .done j2 none) (h4 : Delete j2 (p ++ [q]) = .done b none) : Flatten a = Flatten b := by
  have key : ∀ {q : Text}, (∃ m ∈ ms, m.key = q) → ∃ m ∈ plainMembers ms, m.1 = q := by
    rintro q ⟨m, hm, rfl⟩
    rw [plainMembers_eq]
    exact ⟨_, List.mem_map.2 ⟨m, hm, rfl⟩, rfl⟩
  have e1 := on_delete_obj (key hq)
  have e2 := on_delete_obj (key hr)
  refine C138_pair (o := .delete [] q) (u := .delete [] r) (o' := .delete [] q) (u' := .delete [] r) hd h rfl rfl rfl rfl
    (applies_delete_obj (key hq)) ?_ (applies_delete_obj (key hr)) ?_ ?_ (by simpa [Edit.under, Edit.run] using h1)
    (by simpa [Edit.under, Edit.run] using h2) (by simpa [Edit.under, Edit.run] using h3) (by simpa [Edit.under, Edit.run] using h4)
  · intro w1 hw1
    rw [Json.plain, e1] at hw1
    cases hw1
    exact applies_delete_obj (mem_eraseP (key hr) hne)
  · intro w1 hw1
    rw [Json.plain, e2] at hw1
    cases hw1
    exact applies_delete_obj (mem_eraseP (key hq) (Ne.symm hne))
  · rw [Json.plain, e1, e2, Option.bind_some, Option.bind_some, on_delete_obj (mem_eraseP (key hr) hne), on_delete_obj (mem_eraseP (key hq) (Ne.symm hne))]
    congr 2
    refine eraseP_swap (fun x hx => ?_) _
    simp only [beq_iff_eq] at hx
    simp only [beq_eq_false_iff_ne, ne_eq, hx]
    exact Ne.symm hne

/-- **C138** `Add` to an array and `Delete` of one of its elements. -/
theorem C138_add_delete {d : Doc} {p : List Text} {g : Text} {es : List (Elem Json)} {q : Text} {n : Nat} {v : Json} {j1 j2 a b : Bytes} (hd : d.wf)
    (h : d.get? p = some (.arr g es)) (hq : readIndex q = some n) (hn : n < es.length) (hv : v.wf)
    (h1 : Add d.render v.render p = .done j1 none) (h2 : Delete j1 (p ++ [q]) = .done a none)
    (h3 : Delete d.render (p ++ [q]) = .done j2 none) (h4 : Add j2 v.render p = .done b none) : Flatten a = Flatten b := by
  have hl : (plainElems es).length = es.length := by rw [plainElems_eq, List.length_map]
  have e1 := on_delete_arr (es := plainElems es) hq (by omega)
  have e2 : (Edit.add [] v).on (.arr (plainElems es)) = some (.arr (plainElems es ++ [v.plain])) := rfl
  refine C138_pair (o := .add [] v) (u := .delete [] q) (o' := .add [] v) (u' := .delete [] q) hd h hv rfl hv rfl
    rfl ?_ (applies_delete_arr hq (by omega)) ?_ ?_ (by simpa [Edit.under, Edit.run] using h1)
    (by simpa [Edit.under, Edit.run] using h2) (by simpa [Edit.under, Edit.run] using h3) (by simpa [Edit.under, Edit.run] using h4)
  · intro w1 hw1
    rw [Json.plain, e2] at hw1
    cases hw1
    exact applies_delete_arr hq (by simp; omega)
  · intro w1 hw1
    rw [Json.plain, e1] at hw1
    cases hw1
    rfl
  · rw [Json.plain, e1, e2, Option.bind_some, Option.bind_some, on_delete_arr hq (by simp; omega), List.eraseIdx_append_of_lt_length (by omega)]
    rfl

/-- **C138** `AddKeyValue` to an object and `Delete` of one of its members. -/
theorem C138_addKeyValue_delete {d : Doc} {p : List Text} {g k : Text} {ms : List (Member Json)} {q : Text} {v : Json} {j1 j2 a b : Bytes} (hd : d.wf)
    (h : d.get? p = some (.obj g ms)) (hq : ∃ m ∈ ms, m.key = q) (hkq : k ≠ q) (hk : strOk k) (hv : v.wf)
    (h1 : AddKeyValue d.render k (some v.render) p = .done j1 none) (h2 : Delete j1 (p ++ [q]) = .done a none)
    (h3 : Delete d.render (p ++ [q]) = .done j2 none) (h4 : AddKeyValue j2 k (some v.render) p = .done b none) : Flatten a = Flatten b := by
  have hq' : ∃ m ∈ plainMembers ms, m.1 = q := by
    obtain ⟨m, hm, rfl⟩ := hq
    rw [plainMembers_eq]
    exact ⟨_, List.mem_map.2 ⟨m, hm, rfl⟩, rfl⟩
  have e1 := on_delete_obj hq'
  have hargs : (Edit.addKeyValue [] k v).args := by simp [Edit.args, hk, hv]
  have hany : ((plainMembers ms).eraseP fun m => m.1 == q).any (fun m => m.1 == k) = (plainMembers ms).any (fun m => m.1 == k) := by
    rw [Bool.eq_iff_iff, List.any_eq_true, List.any_eq_true]
    constructor
    · rintro ⟨m, hm, e⟩; exact ⟨m, List.mem_of_mem_eraseP hm, e⟩
    · rintro ⟨m, hm, e⟩
      simp only [beq_iff_eq] at e
      obtain ⟨x, hx, ex⟩ := mem_eraseP (q := q) ⟨m, hm, e⟩ hkq
      exact ⟨x, hx, by simpa using ex⟩
  refine C138_pair (o := .addKeyValue [] k v) (u := .delete [] q) (o' := .addKeyValue [] k v) (u' := .delete [] q) hd h hargs rfl hargs rfl
    rfl ?_ (applies_delete_obj hq') ?_ ?_ (by simpa [Edit.under, Edit.run] using h1)
    (by simpa [Edit.under, Edit.run] using h2) (by simpa [Edit.under, Edit.run] using h3) (by simpa [Edit.under, Edit.run] using h4)
  · intro w1 hw1
    simp only [Json.plain, Edit.on, Plain.edit, Plain.addMember] at hw1
    split at hw1 <;> cases hw1
    obtain ⟨m, hm, e⟩ := hq'
    exact applies_delete_obj ⟨m, List.mem_append_left _ hm, e⟩
  · intro w1 hw1
    rw [Json.plain, e1] at hw1
    cases hw1
    rfl
  · rw [Json.plain, e1, Option.bind_some]
    simp only [Edit.on, Plain.edit, Plain.addMember, hany]
    split
    · rfl
    · obtain ⟨m, hm, e⟩ := hq'
      have := on_delete_obj (ms := plainMembers ms ++ [(k, v.plain)]) ⟨m, List.mem_append_left _ hm, e⟩
      simp only [Edit.on, Plain.edit] at this
      rw [Option.bind_some, this, List.eraseP_append_left (a := m) (by simpa using e) _ hm]

/-- Byte for byte the texts need not be the same: the white space behind the last but one of the elements stays or goes. -/
theorem C138_bytes : Delete (str "[0,1 ,2]") [str "1"] = .done (str "[0,2]") none ∧ Delete (str "[0,2]") [str "1"] = .done (str "[0]") none ∧
    Delete (str "[0,1 ,2]") [str "2"] = .done (str "[0,1 ]") none ∧ Delete (str "[0,1 ]") [str "1"] = .done (str "[0 ]") none := by
  refine ⟨?_, ?_, ?_, ?_⟩ <;> decide +kernel

/-- `Delete` of two elements goes through in either order. -/
theorem C138_delete_runs {d : Doc} {p : List Text} {g : Text} {es : List (Elem Json)} {q r q' r' : Text} {n m : Nat} (hd : d.wf)
    (h : d.get? p = some (.arr g es)) (hq : readIndex q = some n) (hn : n < es.length) (hr : readIndex r = some m) (hm : m < es.length) (hlt : n < m)
    (hr' : readIndex r' = some (m - 1)) (hq' : readIndex q' = some n) :
    ∃ j1 j2 a b, Delete d.render (p ++ [q]) = .done j1 none ∧ Delete j1 (p ++ [r']) = .done a none ∧
      Delete d.render (p ++ [r]) = .done j2 none ∧ Delete j2 (p ++ [q']) = .done b none ∧ Flatten a = Flatten b := by
  have hl : (plainElems es).length = es.length := by rw [plainElems_eq, List.length_map]
  have key : ∀ {q r : Text} {n m : Nat}, readIndex q = some n → n < es.length → readIndex r = some m → m < es.length - 1 →
      ∃ j a, Delete d.render (p ++ [q]) = .done j none ∧ Delete j (p ++ [r]) = .done a none := by
    intro q r n m hq hn hr hm
    have hv : Valid (Json.arr g es).plain ([.delete [] q, .delete [] r].map fun o => (o, none)) := by
      refine pair_valid rfl rfl (applies_delete_arr hq (by omega)) ?_
      intro w1 hw1
      rw [Json.plain, on_delete_arr hq (by omega)] at hw1
      cases hw1
      exact applies_delete_arr hr (by rw [List.length_eraseIdx, if_pos (by omega)]; omega)
    obtain ⟨-, json, -, hr⟩ := C134_runs hd h hv (by intro o ho; simp at ho; rcases ho with rfl | rfl <;> rfl)
    cases hr with
    | cons a1 hr =>
      cases hr with
      | cons a2 hr =>
        cases hr
        exact ⟨_, _, by simpa [Edit.under, Edit.run] using a1, by simpa [Edit.under, Edit.run] using a2⟩
  obtain ⟨j1, a, h1, h2⟩ := key hq hn hr' (by omega)
  obtain ⟨j2, b, h3, h4⟩ := key hr hm hq' (by omega)
  exact ⟨j1, j2, a, b, h1, h2, h3, h4, C138_delete_elements hd h hq hn hr hm hlt hr' hq' h1 h2 h3 h4⟩

/-- A case: the first and the third element of the array of the sample. -/
example : ∃ j1 j2 a b, Delete Sample.doc.render (Sample.toArr ++ [str "0"]) = .done j1 none ∧ Delete j1 (Sample.toArr ++ [str "1"]) = .done a none ∧
    Delete Sample.doc.render (Sample.toArr ++ [str "2"]) = .done j2 none ∧ Delete j2 (Sample.toArr ++ [str "0"]) = .done b none ∧ Flatten a = Flatten b :=
  C138_delete_runs (n := 0) (m := 2) Sample.doc_wf Sample.get_arr (by decide +kernel) (by decide +kernel) (by decide +kernel) (by decide +kernel) (by decide)
    (by decide +kernel) (by decide +kernel)

/-- Cases for the other theorems: the calls succeed. -/
example : Delete (str "{\"a\":1,\"b\":2 , \"c\":3}") [str "a"] = .done (str "{\"b\":2 , \"c\":3}") none ∧
    Delete (str "{\"b\":2 , \"c\":3}") [str "c"] = .done (str "{\"b\":2 }") none ∧
    Delete (str "{\"a\":1,\"b\":2 , \"c\":3}") [str "c"] = .done (str "{\"a\":1,\"b\":2 }") none ∧
    Delete (str "{\"a\":1,\"b\":2 }") [str "a"] = .done (str "{\"b\":2 }") none ∧
    AddKeyValue (str "{\"b\":2 }") (str "d") (some (str "4")) [] = .done (str "{\"b\":2 ,\"d\":4}") none ∧
    Delete (str "{\"b\":2 ,\"d\":4}") [str "b"] = .done (str "{\"d\":4}") none ∧
    Delete (str "{\"b\":2 }") [str "b"] = .done (str "{ }") none ∧
    AddKeyValue (str "{ }") (str "d") (some (str "4")) [] = .done (str "{ \"d\":4}") none := by
  refine ⟨?_, ?_, ?_, ?_, ?_, ?_, ?_, ?_⟩ <;> decide +kernel

end Jin

namespace Jin.Go
open Spec

variable {fl : FloatLib UInt64}

/-- **C138 for the text** `Flatten` makes the same of the texts that two such sessions leave. Each call may be the function, the method of `JO` or a typed
function that writes the same value. -/
theorem C138_text_sessions {d : Doc} {p : List Text} {w : Json} {l m : List Edit} {a b t : Bytes} (hd : d.wf) (hw : d.get? p = some w)
    (hl : Valid w.plain (l.map fun o => (o, none))) (hm : Valid w.plain (m.map fun o => (o, none)))
    (he : follow w.plain (l.map fun o => (o, none)) = follow w.plain (m.map fun o => (o, none)))
    (ha : TextSession fl d.render ((l.map (Edit.under p)).map fun o => (o, none)) a)
    (hb : TextSession fl d.render ((m.map (Edit.under p)).map fun o => (o, none)) b)
    (h : Call1 fl (go% Flatten) [.bytes a] (.ok [.bytes t])) : Call1 fl (go% Flatten) [.bytes b] (.ok [.bytes t]) := by
  have e := C138_sessions hd hw hl hm he (session_done ha) (session_done hb)
  have h1 := h.unique (text_Flatten fl a)
  have h2 := text_Flatten fl b
  rw [← e] at h2
  rw [h1]
  exact h2

/-- **C138 for the text** `Delete` of two elements, in either order. -/
theorem C138_text_delete {d : Doc} {p : List Text} {g : Text} {es : List (Elem Json)} {q r q' r' : Text} {n m : Nat} (hd : d.wf)
    (h : d.get? p = some (.arr g es)) (hq : readIndex q = some n) (hn : n < es.length) (hr : readIndex r = some m) (hm : m < es.length) (hlt : n < m)
    (hr' : readIndex r' = some (m - 1)) (hq' : readIndex q' = some n) :
    ∃ j1 j2 a b t, Call fl (go% Delete) [.bytes d.render] (p ++ [q]) (.ok [.bytes j1, .nil]) ∧ Call fl (go% Delete) [.bytes j1] (p ++ [r']) (.ok [.bytes a, .nil]) ∧
      Call fl (go% Delete) [.bytes d.render] (p ++ [r]) (.ok [.bytes j2, .nil]) ∧ Call fl (go% Delete) [.bytes j2] (p ++ [q']) (.ok [.bytes b, .nil]) ∧
      Call1 fl (go% Flatten) [.bytes a] (.ok [.bytes t]) ∧ Call1 fl (go% Flatten) [.bytes b] (.ok [.bytes t]) := by
  obtain ⟨j1, j2, a, b, h1, h2, h3, h4, h5⟩ := C138_delete_runs hd h hq hn hr hm hlt hr' hq'
  exact ⟨j1, j2, a, b, _, run_call (o := .delete p q) h1, run_call (o := .delete p r') h2, run_call (o := .delete p r) h3, run_call (o := .delete p q') h4,
    text_Flatten fl a, h5 ▸ text_Flatten fl b⟩

end Jin.Go
