import Verif.Props.Relative
/-!
# Props.CommuteSame — C137: mutations inside an entry commute with changes of the entries of its container
-/

namespace Jin
open Spec

theorem applies_move {s s' : List Text} {o : Edit} {t u : Plain} (hs : s' ≠ []) (h : u.get? (s' ++ o.at) = t.get? (s ++ o.at))
    (ha : (o.under s).applies t) : (o.under s').applies u := by
  cases o <;> simp only [Edit.at] at h <;> simp only [Edit.under, Edit.applies, plain_get_append, h] at ha ⊢ <;>
    first
      | exact ha
      | (simp only [Bool.and_eq_true, Bool.not_eq_true', List.isEmpty_eq_false_iff] at ha ⊢
         exact ⟨fun e => hs (List.append_eq_nil_iff.1 e).1, ha.2⟩)

/-- `U` and the mutation `o` of a text: `o'` is what `o` is called after `U`. The text is the same in either order if no call reports an error, and none does
unless `o` looks for a key. -/
def InSame (U : Bytes → Mut) (o o' : Edit) (json : Bytes) : Prop :=
  (∀ j1 j2 a b, U json = .done j1 none → o'.run j1 = .done a none → o.run json = .done j2 none → U j2 = .done b none → a = b) ∧
    (o.looks = false → ∃ j1 j2 a, U json = .done j1 none ∧ o'.run j1 = .done a none ∧ o.run json = .done j2 none ∧ U j2 = .done a none)

theorem commute_inside {d : Doc} {p : List Text} {w w1 c : Json} {r r' : Text} {m m' : Nat} {o : Edit} {U : Bytes → Mut} (hd : d.wf)
    (h : d.get? p = some w) (hm : w.slot? r = some m) (hc : d.get? (p ++ [r] ++ o.at) = some c) (hs : w1.slot? r' = some m') (hd1 : (d.set p w1).wf)
    (hg : (d.set p w1).get? (p ++ [r'] ++ o.at) = some c) (hU1 : U d.render = .done (d.set p w1).render none)
    (hU2 : ∀ x : Json, (d.set p (updAt w m fun c => c.upd (fun _ => x) o.at)).wf →
      U (d.set p (updAt w m fun c => c.upd (fun _ => x) o.at)).render = .done (d.set p (updAt w1 m' fun c => c.upd (fun _ => x) o.at)).render none)
    (ho : o.args) (hv : (o.under (p ++ [r])).applies d.root.plain) : InSame U (o.under (p ++ [r])) (o.under (p ++ [r'])) d.render := by
  obtain ⟨c', he⟩ := edit_under o c ho
  have hv1 : (o.under (p ++ [r'])).applies (d.set p w1).root.plain := by
    refine applies_move (by simp) ?_ hv
    rw [get_plain, get_plain]
    exact congrArg (Option.map Json.plain) (hg.trans hc.symm)
  have e1 : d.set (p ++ [r] ++ o.at) c' = d.set p (updAt w m fun c => c.upd (fun _ => c') o.at) := by
    simp only [Doc.set, Json.set, List.append_assoc, List.cons_append, List.nil_append, upd_append]
    congr 1
    refine upd_congr p h ?_
    show w.upd _ (r :: o.at) = _
    rw [Json.upd, updChild_slot hm]
  have e2 : (d.set p w1).set (p ++ [r'] ++ o.at) c' = d.set p (updAt w1 m' fun c => c.upd (fun _ => c') o.at) := by
    simp only [Doc.set, Json.set, List.append_assoc, List.cons_append, List.nil_append, upd_append]
    rw [upd_upd p h]
    congr 1
    refine upd_congr p h ?_
    show w1.upd _ (r' :: o.at) = _
    rw [Json.upd, updChild_slot hs]
  have key : ∀ {j2}, (o.under (p ++ [r])).run d.render = .done j2 none →
      U j2 = .done (d.set p (updAt w1 m' fun c => c.upd (fun _ => c') o.at)).render none := by
    intro j2 h3
    obtain ⟨k1, k2⟩ := he (p ++ [r]) d hd hc hv _ h3
    rw [e1] at k1 k2
    rw [k1, hU2 c' k2]
  have key2 : ∀ {a}, (o.under (p ++ [r'])).run (d.set p w1).render = .done a none → a = (d.set p (updAt w1 m' fun c => c.upd (fun _ => c') o.at)).render := by
    intro a h2
    obtain ⟨l1, -⟩ := he (p ++ [r']) _ hd1 hg hv1 _ h2
    rw [e2] at l1
    exact l1
  refine ⟨?_, fun hl => ?_⟩
  · intro j1 j2 a b h1 h2 h3 h4
    rw [hU1] at h1
    cases h1
    rw [key h3] at h4
    cases h4
    exact key2 h2
  · obtain ⟨a, h2⟩ := C127_runs hd1 (by rw [under_args]; exact ho) hv1 (by rw [under_looks] at hl ⊢; exact hl)
    obtain ⟨j2, h3⟩ := C127_runs hd (by rw [under_args]; exact ho) hv hl
    refine ⟨_, j2, a, hU1, h2, h3, ?_⟩
    rw [key2 h2]
    exact key h3

theorem updAt_addEnt {w : Json} (hc : w.isContainer) (hall : ∀ x ∈ rents w, Fits w x.e) {x : Entry} (hf : Fits w x) {m : Nat} (hm : m < (rents w).length)
    (f : Json → Json) : addEnt (updAt w m f) x = updAt (addEnt w x) m f := by
  have hne : rents w ≠ [] := by rintro e; rw [e] at hm; cases hm
  have hne' : rents (updAt w m f) ≠ [] := by
    rw [rents_updAt]; intro e; exact hne (by simpa using e)
  rw [addEnt, addEnt, if_neg hne, if_neg hne', updAt_build hc, rents_updAt, modify_left [⟨[], x, []⟩] hm]
  · cases w <;> rfl
  · intro y hy
    rcases List.mem_append.1 hy with hy | hy
    · exact hall y hy
    · rw [List.mem_singleton] at hy; subst hy; exact hf

theorem add_inside {d : Doc} {p : List Text} {g : Text} {es : List (Elem Json)} {r : Text} {v c : Json} {o : Edit} (hd : d.wf)
    (h : d.get? p = some (.arr g es)) (hc : d.get? (p ++ [r] ++ o.at) = some c) (hv : v.wf) (ho : o.args) (ha : (o.under (p ++ [r])).applies d.root.plain) :
    InSame (fun j => Add j v.render p) (o.under (p ++ [r])) (o.under (p ++ [r])) d.render := by
  have hw := get_wf p (doc_wf.1 hd).2.1 h
  have hc' := hc
  unfold Doc.get? at hc'
  rw [List.append_assoc, get_append, show d.root.get? p = _ from h, Option.bind_some, List.cons_append, get_cons_eq, Option.bind_eq_some_iff] at hc'
  obtain ⟨m, hm, hval⟩ := hc'
  have hlt : m < (rents (.arr g es)).length := by
    have := slot_lt hm
    rwa [rents_entries, List.length_map] at this
  obtain ⟨a1, a2, a3⟩ := addEnt_ok (x := .elem v) hw rfl rfl hv
  have hs : (addEnt (.arr g es) (.elem v)).slot? r = some m := by
    rw [slot_arr (by rw [a2]; rfl), a3]
    rw [slot_arr rfl, Option.filter_eq_some_iff] at hm
    rw [hm.1, Option.filter_some, if_pos]
    have := hm.2
    simp only [decide_eq_true_eq, List.length_append] at this ⊢
    omega
  have hd1 : (d.set p (addEnt (.arr g es) (.elem v))).wf := doc_upd_wf (f := fun _ => _) hd h a1
  refine commute_inside (U := fun j => Add j v.render p) (r' := r) (m' := m) (w1 := addEnt (.arr g es) (.elem v)) hd h hm hc hs hd1 ?_ (add_ok hd h v) ?_ ho ha
  · show (d.root.set p _).get? _ = _
    rw [Json.set, List.append_assoc, get_upd_append p h, List.cons_append, get_cons_eq, hs, Option.bind_some, a3]
    rw [List.getElem?_append_left (by rw [rents_entries, List.length_map]; exact hlt)]
    exact hval
  · intro x hx
    have hg : (d.set p (updAt (.arr g es) m fun c => c.upd (fun _ => x) o.at)).get? p = some (.arr g (es.modify m fun e => { e with v := e.v.upd (fun _ => x) o.at })) :=
      get_upd p h fun _ => _
    show Add _ _ _ = _
    rw [add_ok hx hg v]
    have e := updAt_addEnt (w := .arr g es) (x := .elem v) rfl (fun y hy => rents_fit y hy) rfl hlt (fun c => c.upd (fun _ => x) o.at)
    rw [← e, doc_set_set h]
    rfl

theorem applies_inside {d : Doc} {s : List Text} {o : Edit} (ha : (o.under s).applies d.root.plain) : ∃ c, d.get? (s ++ o.at) = some c := by
  obtain ⟨c, hc⟩ := applies_at ha
  obtain ⟨w, hw, -⟩ := of_get_plain hc
  rw [under_at] at hw
  exact ⟨w, hw⟩

/-- **C137** `Add` to an array and a mutation inside one of its elements: the text is the same in either order, byte for byte. -/
theorem C137_add {d : Doc} {p : List Text} {g : Text} {es : List (Elem Json)} {r : Text} {v : Json} {o : Edit} {j1 j2 a b : Bytes} (hd : d.wf)
    (h : d.get? p = some (.arr g es)) (hv : v.wf) (ho : o.args) (ha : (o.under (p ++ [r])).applies d.root.plain)
    (h1 : Add d.render v.render p = .done j1 none) (h2 : (o.under (p ++ [r])).run j1 = .done a none)
    (h3 : (o.under (p ++ [r])).run d.render = .done j2 none) (h4 : Add j2 v.render p = .done b none) : a = b :=
  let ⟨_, hc⟩ := applies_inside ha
  (add_inside hd h hc hv ho ha).1 _ _ _ _ h1 h2 h3 h4

/-- **C137** All four calls end without an error if the mutation is a `Set`, `Delete`, `Add` or `Insert`. -/
theorem C137_add_runs {d : Doc} {p : List Text} {g : Text} {es : List (Elem Json)} {r : Text} {v : Json} {o : Edit} (hd : d.wf)
    (h : d.get? p = some (.arr g es)) (hv : v.wf) (ho : o.args) (ha : (o.under (p ++ [r])).applies d.root.plain)
    (hl : o.looks = false) :
    ∃ j1 j2 a, Add d.render v.render p = .done j1 none ∧ (o.under (p ++ [r])).run j1 = .done a none ∧
      (o.under (p ++ [r])).run d.render = .done j2 none ∧ Add j2 v.render p = .done a none :=
  let ⟨_, hc⟩ := applies_inside ha
  (add_inside hd h hc hv ho ha).2 (by rw [under_looks]; exact hl)

/-- **C137** `AddKeyValue` to an object and a mutation inside one of its members. -/
theorem C137_addKeyValue {d : Doc} {p : List Text} {g k : Text} {ms : List (Member Json)} {r : Text} {v : Json} {o : Edit} {j1 j2 a b : Bytes} (hd : d.wf)
    (h : d.get? p = some (.obj g ms)) (hk : strOk k) (hv : v.wf) (ho : o.args)
    (ha : (o.under (p ++ [r])).applies d.root.plain)
    (h1 : AddKeyValue d.render k (some v.render) p = .done j1 none) (h2 : (o.under (p ++ [r])).run j1 = .done a none)
    (h3 : (o.under (p ++ [r])).run d.render = .done j2 none) (h4 : AddKeyValue j2 k (some v.render) p = .done b none) : a = b := by
  obtain ⟨c, hc⟩ := applies_inside ha
  have hw := get_wf p (doc_wf.1 hd).2.1 h
  have hc' := hc
  unfold Doc.get? at hc'
  rw [List.append_assoc, get_append, show d.root.get? p = _ from h, Option.bind_some, List.cons_append, get_cons_eq, Option.bind_eq_some_iff] at hc'
  obtain ⟨m, hm, hval⟩ := hc'
  have hlt : m < (rents (.obj g ms)).length := by
    have := slot_lt hm
    rwa [rents_entries, List.length_map] at this
  obtain ⟨a1, a2, a3⟩ := addEnt_ok (x := .member k [] [] v) hw rfl rfl ⟨hk, rfl, rfl, hv⟩
  have hs : (addEnt (.obj g ms) (.member k [] [] v)).slot? r = some m := by
    rw [slot_obj (by rw [a2]; rfl), a3]
    rw [slot_obj rfl] at hm
    rw [List.findIdx?_append, hm]
    rfl
  have key : ∀ {e : Doc} {g' : Text} {ms' : List (Member Json)} {j : Bytes}, e.wf → e.get? p = some (.obj g' ms') →
      AddKeyValue e.render k (some v.render) p = .done j none → j = (e.set p (addEnt (.obj g' ms') (.member k [] [] v))).render := by
    intro e g' ms' j he hg hr
    rcases addkv_done he hg hr with ⟨-, hcl⟩ | ⟨x, hx, -⟩
    · rw [addkv_ok he hg hcl v] at hr
      cases hr
      rfl
    · cases hx
  have hd1 : (d.set p (addEnt (.obj g ms) (.member k [] [] v))).wf := doc_upd_wf (f := fun _ => _) hd h a1
  have hj1 := key hd h h1
  subst hj1
  obtain ⟨c', he⟩ := edit_under o c ho
  have hg1 : (d.set p (addEnt (.obj g ms) (.member k [] [] v))).get? (p ++ [r] ++ o.at) = some c := by
    show (d.root.set p _).get? _ = _
    rw [Json.set, List.append_assoc, get_upd_append p h, List.cons_append, get_cons_eq, hs, Option.bind_some, a3]
    rw [List.getElem?_append_left (by rw [rents_entries, List.length_map]; exact hlt)]
    exact hval
  have hv1 : (o.under (p ++ [r])).applies (d.set p (addEnt (.obj g ms) (.member k [] [] v))).root.plain := by
    refine applies_move (by simp) ?_ ha
    rw [get_plain, get_plain]
    exact congrArg (Option.map Json.plain) (hg1.trans hc.symm)
  obtain ⟨k1, k2⟩ := he (p ++ [r]) d hd hc ha _ h3
  obtain ⟨l1, -⟩ := he (p ++ [r]) _ hd1 hg1 hv1 _ h2
  have e1 : d.set (p ++ [r] ++ o.at) c' = d.set p (updAt (.obj g ms) m fun c => c.upd (fun _ => c') o.at) := by
    simp only [Doc.set, Json.set, List.append_assoc, List.cons_append, List.nil_append, upd_append]
    congr 1
    refine upd_congr p h ?_
    show (Json.obj g ms).upd _ (r :: o.at) = _
    rw [Json.upd, updChild_slot hm]
  have e2 : (d.set p (addEnt (.obj g ms) (.member k [] [] v))).set (p ++ [r] ++ o.at) c' =
      d.set p (updAt (addEnt (.obj g ms) (.member k [] [] v)) m fun c => c.upd (fun _ => c') o.at) := by
    simp only [Doc.set, Json.set, List.append_assoc, List.cons_append, List.nil_append, upd_append]
    rw [upd_upd p h]
    congr 1
    refine upd_congr p h ?_
    show (addEnt (.obj g ms) (.member k [] [] v)).upd _ (r :: o.at) = _
    rw [Json.upd, updChild_slot hs]
  rw [e1] at k1 k2
  rw [e2] at l1
  subst k1
  have hg : (d.set p (updAt (.obj g ms) m fun c => c.upd (fun _ => c') o.at)).get? p = some (.obj g (ms.modify m fun e => { e with v := e.v.upd (fun _ => c') o.at })) :=
    get_upd p h fun _ => _
  rw [l1, key k2 hg h4, ← updAt_addEnt (w := .obj g ms) (x := .member k [] [] v) rfl (fun y hy => rents_fit y hy) rfl hlt, doc_set_set h]
  rfl

/-- `Delete` of an entry and a mutation inside another entry of the same container, which it finds at `r'` afterwards. -/
theorem delete_inside {d : Doc} {p : List Text} {q r r' : Text} {w c : Json} {n m : Nat} {o : Edit} (hd : d.wf)
    (h : d.get? p = some w) (hn : w.slot? q = some n) (hm : w.slot? r = some m) (hmn : m ≠ n) (hc : d.get? (p ++ [r] ++ o.at) = some c)
    (hr' : ∀ w' : Json, w'.kind = w.kind → w'.entries = w.entries.eraseIdx n → w'.slot? r' = some (if m < n then m else m - 1))
    (ho : o.args) (ha : (o.under (p ++ [r])).applies d.root.plain) :
    InSame (fun j => Delete j (p ++ [q])) (o.under (p ++ [r])) (o.under (p ++ [r'])) d.render := by
  obtain ⟨xs, e, ys, r1, r2, hw, hcon, r3⟩ := delete_ok hd h hn
  obtain ⟨w1, hw1⟩ : ∃ w1, w1 = build w (e.l ++ e.r) (dropEnt xs e ys) := ⟨_, rfl⟩
  have hall := rents_all hcon hw
  rw [r1] at hall
  have hdall : ∀ y ∈ dropEnt xs e ys, Fits w y.e ∧ Ws y.l ∧ Ws y.r ∧ y.e.ok := by
    refine dropEnt_all (P := fun x => Fits w x.e ∧ Ws x.l ∧ Ws x.r ∧ x.e.ok) xs e ys hall ?_ ?_
    · intro a b ha hb; exact ⟨hb.1, ws_append.2 ⟨ha.2.1, hb.2.1⟩, hb.2.2⟩
    · intro a b ha hb; exact ⟨hb.1, hb.2.1, ws_append.2 ⟨hb.2.2.1, ha.2.2.1⟩, hb.2.2.2⟩
  have hok1 : w1.wf := hw1 ▸ (build_ok hcon (ws_append.2 ⟨(hall e (by simp)).2.1, (hall e (by simp)).2.2.1⟩) hdall).1
  have hent : w1.entries = w.entries.eraseIdx n := by
    rw [rents_entries, hw1, rents_build hcon (fun y hy => (hdall y hy).1), dropEnt_entries, rents_entries, r1, ← r2]
    rw [List.map_append, List.map_cons, List.eraseIdx_append_of_length_le (by simp)]
    simp
  have hs1 := hr' w1 (by rw [hw1, kind_build]) hent
  rw [← hw1] at r3
  have hd1 : (d.set p w1).wf := doc_upd_wf (f := fun _ => w1) hd h hok1
  have hlt : m < (rents w).length := by
    have := slot_lt hm
    rwa [rents_entries, List.length_map] at this
  have hc' := hc
  unfold Doc.get? at hc'
  rw [List.append_assoc, get_append, show d.root.get? p = some w from h, Option.bind_some, List.cons_append, get_cons_eq, hm, Option.bind_some] at hc'
  have hg1 : (d.set p w1).get? (p ++ [r'] ++ o.at) = some c := by
    show (d.root.set p w1).get? _ = _
    rw [Json.set, List.append_assoc, get_upd_append p h, List.cons_append, get_cons_eq, hs1, Option.bind_some, hent, List.getElem?_eraseIdx, ← hc']
    by_cases hlt : m < n
    · simp [hlt]
    · rw [if_neg hlt, if_neg (by omega), Nat.sub_add_cancel (by omega)]
  refine commute_inside (U := fun j => Delete j (p ++ [q])) hd h hm hc hs1 hd1 hg1 r3 ?_ ho ha
  intro x hx
  obtain ⟨xs2, e', ys2, k1, k2, -, -, k3⟩ := delete_ok (q := q) (n := n) hx (get_upd p h fun _ => _) (by rw [slot_updAt]; exact hn)
  show Delete _ _ = _
  rw [k3]
  rw [rents_updAt] at k1
  obtain ⟨rfl, k4⟩ := drop_modify r1 k1 r2 k2 hlt hmn
  rw [k4, hw1, updAt_build hcon fun y hy => (hdall y hy).1]
  have hb : ∀ g l, build (updAt w m fun c => c.upd (fun _ => x) o.at) g l = build w g l := by intro g l; cases w <;> rfl
  rw [hb, doc_set_set h]

theorem delete_inside_member {d : Doc} {p : List Text} {q r : Text} {g : Text} {ms : List (Member Json)} {x : Json} {o : Edit} (hd : d.wf)
    (h : d.get? p = some (.obj g ms)) (hq : d.get? (p ++ [q]) = some x) (hne : r ≠ q)
    (ho : o.args) (ha : (o.under (p ++ [r])).applies d.root.plain) :
    InSame (fun j => Delete j (p ++ [q])) (o.under (p ++ [r])) (o.under (p ++ [r])) d.render := by
  obtain ⟨c, hc⟩ := applies_inside ha
  have hq' := hq
  have hr' := hc
  unfold Doc.get? at hq' hr'
  rw [get_append, show d.root.get? p = _ from h, Option.bind_some, get_cons_eq, Option.bind_eq_some_iff] at hq'
  rw [List.append_assoc, get_append, show d.root.get? p = _ from h, Option.bind_some, List.cons_append, get_cons_eq, Option.bind_eq_some_iff] at hr'
  obtain ⟨n, hn, -⟩ := hq'
  obtain ⟨m, hm, -⟩ := hr'
  have hkn : ∃ e, (Json.obj g ms).entries[n]? = some e ∧ e.key = some q := by
    have := hn
    rw [slot_obj rfl, List.findIdx?_eq_some_iff_getElem] at this
    obtain ⟨a1, a2, -⟩ := this
    exact ⟨_, List.getElem?_eq_getElem a1, by simpa using a2⟩
  have hm' := hm
  rw [slot_obj rfl, List.findIdx?_eq_some_iff_getElem] at hm'
  obtain ⟨b1, b2, b3⟩ := hm'
  have hmn : m ≠ n := by
    rintro rfl
    obtain ⟨e, he, hk⟩ := hkn
    rw [List.getElem?_eq_getElem b1, Option.some.injEq] at he
    rw [he, hk] at b2
    simp at b2
    exact hne b2.symm
  refine delete_inside (r' := r) hd h hn hm hmn hc ?_ ho ha
  intro w' hk he
  rw [slot_obj (by rw [hk]; rfl), he, List.findIdx?_eq_some_iff_getElem]
  have hnl := slot_lt hn
  refine ⟨?_, ?_, ?_⟩
  · rw [List.length_eraseIdx, if_pos hnl]; split <;> omega
  · rw [List.getElem_eraseIdx]
    by_cases hlt : m < n
    · simp only [hlt, if_true, dif_pos]; exact b2
    · have h1 : ¬ m - 1 < n := by omega
      have h2 : m - 1 + 1 = m := by omega
      simp only [hlt, if_false, h1, dif_neg, not_false_eq_true, h2]
      exact b2
  · intro j hj
    rw [List.getElem_eraseIdx]
    split
    · exact b3 j (by split at hj <;> omega)
    · refine b3 (j + 1) ?_
      split at hj <;> omega

/-- **C137** `Delete` of a member and a mutation inside another member of the same object. -/
theorem C137_delete_member {d : Doc} {p : List Text} {q r : Text} {g : Text} {ms : List (Member Json)} {x : Json} {o : Edit} {j1 j2 a b : Bytes} (hd : d.wf)
    (h : d.get? p = some (.obj g ms)) (hq : d.get? (p ++ [q]) = some x) (hne : r ≠ q)
    (ho : o.args) (ha : (o.under (p ++ [r])).applies d.root.plain)
    (h1 : Delete d.render (p ++ [q]) = .done j1 none) (h2 : (o.under (p ++ [r])).run j1 = .done a none)
    (h3 : (o.under (p ++ [r])).run d.render = .done j2 none) (h4 : Delete j2 (p ++ [q]) = .done b none) : a = b :=
  (delete_inside_member hd h hq hne ho ha).1 _ _ _ _ h1 h2 h3 h4

/-- **C137** All four calls end without an error if the mutation is a `Set`, `Delete`, `Add` or `Insert`. -/
theorem C137_delete_member_runs {d : Doc} {p : List Text} {q r : Text} {g : Text} {ms : List (Member Json)} {x : Json} {o : Edit} (hd : d.wf)
    (h : d.get? p = some (.obj g ms)) (hq : d.get? (p ++ [q]) = some x) (hne : r ≠ q)
    (ho : o.args) (ha : (o.under (p ++ [r])).applies d.root.plain)
    (hl : o.looks = false) :
    ∃ j1 j2 a, Delete d.render (p ++ [q]) = .done j1 none ∧ (o.under (p ++ [r])).run j1 = .done a none ∧
      (o.under (p ++ [r])).run d.render = .done j2 none ∧ Delete j2 (p ++ [q]) = .done a none :=
  (delete_inside_member hd h hq hne ho ha).2 (by rw [under_looks]; exact hl)

theorem delete_inside_element {d : Doc} {p : List Text} {q r r' : Text} {g : Text} {es : List (Elem Json)} {n m : Nat} {o : Edit}
    (hd : d.wf) (h : d.get? p = some (.arr g es)) (hq : readIndex q = some n) (hn : n < es.length) (hr : readIndex r = some m) (hmn : m ≠ n)
    (hr' : readIndex r' = some (if m < n then m else m - 1)) (ho : o.args) (ha : (o.under (p ++ [r])).applies d.root.plain) :
    InSame (fun j => Delete j (p ++ [q])) (o.under (p ++ [r])) (o.under (p ++ [r'])) d.render := by
  obtain ⟨c, hc⟩ := applies_inside ha
  have hc' := hc
  unfold Doc.get? at hc'
  rw [List.append_assoc, get_append, show d.root.get? p = _ from h, Option.bind_some, List.cons_append, get_cons_eq, Option.bind_eq_some_iff] at hc'
  obtain ⟨m', hm, -⟩ := hc'
  have hm2 := hm
  rw [slot_arr rfl, hr, Option.filter_eq_some_iff, Option.some.injEq] at hm2
  obtain ⟨rfl, hml⟩ := hm2
  have hml : m < es.length := by simpa [Json.entries] using hml
  refine delete_inside (r' := r') hd h (by simp [Json.slot?, hq, hn]) hm hmn hc ?_ ho ha
  intro w' hk he
  rw [slot_arr (by rw [hk]; rfl), hr', he, List.length_eraseIdx]
  have : (Json.arr g es).entries.length = es.length := by simp [Json.entries]
  rw [this, if_pos hn, Option.filter_some, if_pos]
  simp only [decide_eq_true_eq]
  split <;> omega

/-- **C137** `Delete` of an element and a mutation inside another element of the same array: the elements behind the deleted one have moved by one. -/
theorem C137_delete_element {d : Doc} {p : List Text} {q r r' : Text} {g : Text} {es : List (Elem Json)} {n m : Nat} {o : Edit} {j1 j2 a b : Bytes}
    (hd : d.wf) (h : d.get? p = some (.arr g es)) (hq : readIndex q = some n) (hn : n < es.length) (hr : readIndex r = some m) (hmn : m ≠ n)
    (hr' : readIndex r' = some (if m < n then m else m - 1)) (ho : o.args) (ha : (o.under (p ++ [r])).applies d.root.plain)
    (h1 : Delete d.render (p ++ [q]) = .done j1 none) (h2 : (o.under (p ++ [r'])).run j1 = .done a none)
    (h3 : (o.under (p ++ [r])).run d.render = .done j2 none) (h4 : Delete j2 (p ++ [q]) = .done b none) : a = b :=
  (delete_inside_element hd h hq hn hr hmn hr' ho ha).1 _ _ _ _ h1 h2 h3 h4

/-- **C137** All four calls end without an error if the mutation is a `Set`, `Delete`, `Add` or `Insert`. -/
theorem C137_delete_element_runs {d : Doc} {p : List Text} {q r r' : Text} {g : Text} {es : List (Elem Json)} {n m : Nat} {o : Edit}
    (hd : d.wf) (h : d.get? p = some (.arr g es)) (hq : readIndex q = some n) (hn : n < es.length) (hr : readIndex r = some m) (hmn : m ≠ n)
    (hr' : readIndex r' = some (if m < n then m else m - 1)) (ho : o.args) (ha : (o.under (p ++ [r])).applies d.root.plain)
    (hl : o.looks = false) :
    ∃ j1 j2 a, Delete d.render (p ++ [q]) = .done j1 none ∧ (o.under (p ++ [r'])).run j1 = .done a none ∧
      (o.under (p ++ [r])).run d.render = .done j2 none ∧ Delete j2 (p ++ [q]) = .done a none :=
  (delete_inside_element hd h hq hn hr hmn hr' ho ha).2 (by rw [under_looks]; exact hl)

theorem modify_swap {α : Type} {f g : α → α} (hfg : ∀ x, f (g x) = g (f x)) (l : List α) (m n : Nat) :
    (l.modify m f).modify n g = (l.modify n g).modify m f := by
  apply List.ext_getElem?
  intro i
  simp only [List.getElem?_modify, Option.map_eq_map, Option.map_map]
  cases l[i]? with
  | none => rfl
  | some y =>
    simp only [Option.map_some, Function.comp_apply, Option.some.injEq]
    split <;> split <;> simp [hfg]

/-- **C137** `SetKey` of a member and a mutation inside a member of the same object, which may be the renamed one. -/
theorem C137_setKey {d : Doc} {p : List Text} {q new r g : Text} {ms : List (Member Json)} {x : Json} {o : Edit} {j1 j2 a b : Bytes}
    (hd : d.wf) (h : d.get? p = some (.obj g ms)) (hq : d.get? (p ++ [q]) = some x) (hns : strOk new) (ho : o.args)
    (ha : (o.under (p ++ [r])).applies d.root.plain)
    (h1 : SetKey d.render new (p ++ [q]) = .done j1 none) (h2 : (o.under (p ++ [if r = q then new else r])).run j1 = .done a none)
    (h3 : (o.under (p ++ [r])).run d.render = .done j2 none) (h4 : SetKey j2 new (p ++ [q]) = .done b none) : a = b := by
  obtain ⟨c, hc⟩ := applies_inside ha
  have hq' := hq
  have hc' := hc
  unfold Doc.get? at hq' hc'
  rw [get_append, show d.root.get? p = _ from h, Option.bind_some, get_cons_eq, Option.bind_eq_some_iff] at hq'
  rw [List.append_assoc, get_append, show d.root.get? p = _ from h, Option.bind_some, List.cons_append, get_cons_eq, Option.bind_eq_some_iff] at hc'
  obtain ⟨n, hn, -⟩ := hq'
  obtain ⟨m, hm, hval⟩ := hc'
  have key : ∀ {e : Doc} {g' : Text} {ms' : List (Member Json)} {j : Bytes}, e.wf → e.get? p = some (.obj g' ms') → memberIdx ms' q = some n →
      SetKey e.render new (p ++ [q]) = .done j none → j = (e.set p (.obj g' (ms'.modify n fun m => { m with key := new }))).render ∧
        (e.set p (.obj g' (ms'.modify n fun m => { m with key := new }))).wf ∧ ∀ m ∈ ms', m.key ≠ new := by
    intro e g' ms' j he hg hi hr
    by_cases hx : ∃ m ∈ ms', m.key = new
    · rw [C25_setKey_exists e p q new g' ms' he hg (.inr hx)] at hr
      cases hr
    · rcases C24_all_or_nothing_partial e p q new g' ms' n he hg hi (fun m hm he => hx ⟨m, hm, he⟩) hns _ _ hr with ⟨h0, -⟩ | ⟨-, d', k1, rfl, k2, -⟩
      · exact absurd rfl h0
      · exact ⟨k1, k2, fun m hm he => hx ⟨m, hm, he⟩⟩
  obtain ⟨rfl, hd1, hfresh⟩ := key hd h hn h1
  obtain ⟨c', he⟩ := edit_under o c ho
  have hs : (Json.obj g (ms.modify n fun m => { m with key := new })).slot? (if r = q then new else r) = some m := by
    show memberIdx _ _ = _
    have hm' : memberIdx ms r = some m := hm
    have hn' : memberIdx ms q = some n := hn
    unfold memberIdx at hm' hn' ⊢
    rw [List.findIdx?_eq_some_iff_getElem] at hm' hn' ⊢
    obtain ⟨b1, b2, b3⟩ := hm'
    obtain ⟨c1, c2, c3⟩ := hn'
    simp only [beq_iff_eq] at b2 b3 c2 c3
    refine ⟨by simpa using b1, ?_, ?_⟩
    · simp only [List.getElem_modify, beq_iff_eq]
      by_cases hrq : r = q
      · subst hrq
        have : n = m := by
          rcases Nat.lt_trichotomy n m with hl | hl | hl
          · exact absurd c2 (b3 n hl)
          · exact hl
          · exact absurd b2 (c3 m hl)
        rw [if_pos rfl, if_pos this]
      · rw [if_neg hrq, if_neg (by rintro rfl; exact hrq (b2.symm.trans c2))]
        exact b2
    · intro k hk
      simp only [List.getElem_modify, beq_iff_eq]
      have hkm : ms[k]'(by omega) ∈ ms := List.getElem_mem _
      by_cases hrq : r = q
      · subst hrq
        have : n ≠ k := by rintro rfl; exact b3 n hk c2
        rw [if_pos rfl, if_neg this]
        exact hfresh _ hkm
      · rw [if_neg hrq]
        split
        · intro e
          exact hfresh _ (List.getElem_mem b1) (b2.trans e.symm)
        · exact b3 k hk
  have hents : ((Json.obj g (ms.modify n fun m => { m with key := new })).entries[m]?.map Entry.val) = (Json.obj g ms).entries[m]?.map Entry.val := by
    simp only [Json.entries, List.getElem?_map, List.getElem?_modify, Option.map_map, Option.map_eq_map]
    cases ms[m]? with
    | none => rfl
    | some y =>
      simp only [Option.map_some, Function.comp_apply]
      split <;> rfl
  have hg1 : (d.set p (.obj g (ms.modify n fun m => { m with key := new }))).get? (p ++ [if r = q then new else r] ++ o.at) = some c := by
    show (d.root.set p _).get? _ = _
    rw [Json.set, List.append_assoc, get_upd_append p h, List.cons_append, get_cons_eq, hs, Option.bind_some, hents]
    exact hval
  have hv1 : (o.under (p ++ [if r = q then new else r])).applies (d.set p (.obj g (ms.modify n fun m => { m with key := new }))).root.plain := by
    refine applies_move (by simp) ?_ ha
    rw [get_plain, get_plain]
    exact congrArg (Option.map Json.plain) (hg1.trans hc.symm)
  obtain ⟨k1, k2⟩ := he (p ++ [r]) d hd hc ha _ h3
  obtain ⟨l1, -⟩ := he (p ++ [if r = q then new else r]) _ hd1 hg1 hv1 _ h2
  have e1 : d.set (p ++ [r] ++ o.at) c' = d.set p (updAt (.obj g ms) m fun c => c.upd (fun _ => c') o.at) := by
    simp only [Doc.set, Json.set, List.append_assoc, List.cons_append, List.nil_append, upd_append]
    congr 1
    refine upd_congr p h ?_
    show (Json.obj g ms).upd _ (r :: o.at) = _
    rw [Json.upd, updChild_slot hm]
  have e2 : (d.set p (.obj g (ms.modify n fun m => { m with key := new }))).set (p ++ [if r = q then new else r] ++ o.at) c' =
      d.set p (updAt (.obj g (ms.modify n fun m => { m with key := new })) m fun c => c.upd (fun _ => c') o.at) := by
    simp only [Doc.set, Json.set, List.append_assoc, List.cons_append, List.nil_append, upd_append]
    rw [upd_upd p h]
    congr 1
    refine upd_congr p h ?_
    show (Json.obj g (ms.modify n fun m => { m with key := new })).upd _ ((if r = q then new else r) :: o.at) = _
    rw [Json.upd, updChild_slot hs]
  rw [e1] at k1 k2
  rw [e2] at l1
  subst k1
  have hg : (d.set p (updAt (.obj g ms) m fun c => c.upd (fun _ => c') o.at)).get? p = some (.obj g (ms.modify m fun e => { e with v := e.v.upd (fun _ => c') o.at })) :=
    get_upd p h fun _ => _
  have hi : memberIdx (ms.modify m fun e => { e with v := e.v.upd (fun _ => c') o.at }) q = some n :=
    (slot_updAt (.obj g ms) m (fun c => c.upd (fun _ => c') o.at) q).trans hn
  rw [l1, (key k2 hg hi h4).1, doc_set_set h]
  congr 3
  exact congrArg (Json.obj g) (modify_swap (f := fun m : Member Json => { m with key := new })
    (g := fun m : Member Json => { m with v := m.v.upd (fun _ => c') o.at }) (fun _ => rfl) ms n m)

theorem ins_modify {l xs ys xs2 ys2 : List REnt} {e e2 : REnt} {x : Entry} {n m : Nat} {f : Json → Json} (h1 : l = xs ++ e :: ys)
    (h2 : l.modify m (onVal f) = xs2 ++ e2 :: ys2) (l1 : xs.length = n) (l2 : xs2.length = n) :
    xs2 ++ ⟨e2.l, x, []⟩ :: { e2 with l := [] } :: ys2 =
      (xs ++ ⟨e.l, x, []⟩ :: { e with l := [] } :: ys).modify (if m < n then m else m + 1) (onVal f) := by
  subst h1
  by_cases h : m < n
  · rw [if_pos h]
    rw [modify_left _ (by omega)] at h2 ⊢
    obtain ⟨rfl, h3⟩ := List.append_inj h2 (by simp; omega)
    obtain ⟨rfl, rfl⟩ := List.cons.inj h3
    rfl
  · rw [if_neg h]
    obtain ⟨k, rfl⟩ : ∃ k, m = xs.length + k := ⟨m - xs.length, by omega⟩
    rw [modify_right] at h2
    rw [Nat.add_assoc, modify_right]
    obtain ⟨rfl, h3⟩ := List.append_inj h2 (by omega)
    cases k with
    | zero =>
      simp only [List.modify_zero_cons, List.cons.injEq] at h3
      obtain ⟨rfl, rfl⟩ := h3
      rfl
    | succ k =>
      simp only [List.modify_succ_cons, List.cons.injEq] at h3
      obtain ⟨rfl, rfl⟩ := h3
      rfl

theorem insert_inside {d : Doc} {p : List Text} {r r' : Text} {g : Text} {es : List (Elem Json)} {v : Json} {n m : Nat} {o : Edit}
    (hd : d.wf) (h : d.get? p = some (.arr g es)) (hn : n + 1 < es.length ∨ n = 0 ∧ es ≠ []) (hb : (n : Int) ≤ 9223372036854775807) (hv : v.wf)
    (hr : readIndex r = some m) (hr' : readIndex r' = some (if m < n then m else m + 1)) (ho : o.args) (ha : (o.under (p ++ [r])).applies d.root.plain) :
    InSame (fun j => Insert j n v.render p) (o.under (p ++ [r])) (o.under (p ++ [r'])) d.render := by
  obtain ⟨c, hc⟩ := applies_inside ha
  have hnl : n < es.length := by
    rcases hn with hn | ⟨rfl, hn⟩
    · omega
    · exact List.length_pos_iff.2 hn
  have hok : n + 1 < es.length ∨ n = 0 ∨ ∃ e, es[n]? = some e ∧ e.l = [] := hn.imp id fun h => .inl h.1
  obtain ⟨xs, e, ys, r1, r2, hw, r3⟩ := insert_ok hd h hnl hb hok v
  obtain ⟨w1, hw1⟩ : ∃ w1, w1 = build (.arr g es) g (xs ++ ⟨e.l, .elem v, []⟩ :: { e with l := [] } :: ys) := ⟨_, rfl⟩
  have hall := rents_all (w := .arr g es) rfl hw
  rw [r1] at hall
  have hwe := hall e (by simp)
  have hdall : ∀ y ∈ (xs ++ ⟨e.l, .elem v, []⟩ :: { e with l := [] } :: ys : List REnt), Fits (.arr g es) y.e ∧ Ws y.l ∧ Ws y.r ∧ y.e.ok := by
    intro x hx
    simp only [List.mem_append, List.mem_cons] at hx
    rcases hx with hx | rfl | rfl | hx
    · exact hall x (by simp [hx])
    · exact ⟨rfl, hwe.2.1, rfl, hv⟩
    · exact ⟨hwe.1, rfl, hwe.2.2⟩
    · exact hall x (by simp [hx])
  obtain ⟨hok1, hk1, hent⟩ := build_ok (w := .arr g es) rfl (wf_arr.1 hw).1 hdall
  rw [← hw1] at hok1 hk1 hent r3
  have hents : (Json.arr g es).entries = xs.map REnt.e ++ e.e :: ys.map REnt.e := by rw [rents_entries, r1, List.map_append, List.map_cons]
  have hlen : (Json.arr g es).entries.length = es.length := by simp [Json.entries]
  have hd1 : (d.set p w1).wf := doc_upd_wf (f := fun _ => w1) hd h hok1
  have hc' := hc
  unfold Doc.get? at hc'
  rw [List.append_assoc, get_append, show d.root.get? p = _ from h, Option.bind_some, List.cons_append, get_cons_eq, Option.bind_eq_some_iff] at hc'
  obtain ⟨m', hm, hval⟩ := hc'
  have hm2 := hm
  rw [slot_arr rfl, hr, Option.filter_eq_some_iff, Option.some.injEq] at hm2
  obtain ⟨rfl, hml⟩ := hm2
  have hml : m < es.length := by rw [← hlen]; simpa using hml
  have hs : w1.slot? r' = some (if m < n then m else m + 1) := by
    rw [slot_arr (by rw [hk1]; rfl), hr', Option.filter_some, if_pos]
    rw [hent]
    have : xs.length + (ys.length + 1) = es.length := by rw [← hlen, hents]; simp
    simp only [decide_eq_true_eq, List.length_map, List.length_append, List.length_cons]
    split <;> omega
  have hat : w1.entries[if m < n then m else m + 1]? = (Json.arr g es).entries[m]? := by
    rw [hent, hents, List.map_append, List.map_cons, List.map_cons]
    by_cases hlt : m < n
    · rw [if_pos hlt, List.getElem?_append_left (by simp; omega), List.getElem?_append_left (by simp; omega)]
    · rw [if_neg hlt, List.getElem?_append_right (by simp; omega), List.getElem?_append_right (by simp; omega)]
      simp only [List.length_map]
      rw [show m + 1 - xs.length = (m - xs.length) + 1 from by omega, List.getElem?_cons_succ]
  refine commute_inside (U := fun j => Insert j n v.render p) hd h hm hc hs hd1 ?_ r3 ?_ ho ha
  · show (d.root.set p w1).get? _ = _
    rw [Json.set, List.append_assoc, get_upd_append p h, List.cons_append, get_cons_eq, hs, Option.bind_some, hat]
    exact hval
  · intro x hx
    have hg : (d.set p (updAt (.arr g es) m fun c => c.upd (fun _ => x) o.at)).get? p = some (.arr g (es.modify m fun e => { e with v := e.v.upd (fun _ => x) o.at })) :=
      get_upd p h fun _ => _
    obtain ⟨xs2, e2, ys2, k1, k2, -, k3⟩ := insert_ok (n := n) hx hg (by simpa using hnl) hb
      (by simpa using hn.imp id fun h => Or.inl h.1) v
    show Insert _ _ _ _ = _
    rw [k3]
    have k1' : (rents (.arr g es)).modify m (onVal fun c => c.upd (fun _ => x) o.at) = xs2 ++ e2 :: ys2 := by
      rw [← rents_updAt]; exact k1
    rw [ins_modify r1 k1' r2 k2, hw1, updAt_build (w := .arr g es) rfl fun y hy => (hdall y hy).1, doc_set_set h]
    rfl

/-- **C137** `Insert` into an array and a mutation inside one of its elements: the elements from the new one on have moved by one. -/
theorem C137_insert {d : Doc} {p : List Text} {r r' : Text} {g : Text} {es : List (Elem Json)} {v : Json} {n m : Nat} {o : Edit} {j1 j2 a b : Bytes}
    (hd : d.wf) (h : d.get? p = some (.arr g es)) (hn : n + 1 < es.length ∨ n = 0 ∧ es ≠ []) (hb : (n : Int) ≤ 9223372036854775807) (hv : v.wf)
    (hr : readIndex r = some m) (hr' : readIndex r' = some (if m < n then m else m + 1)) (ho : o.args) (ha : (o.under (p ++ [r])).applies d.root.plain)
    (h1 : Insert d.render n v.render p = .done j1 none) (h2 : (o.under (p ++ [r'])).run j1 = .done a none)
    (h3 : (o.under (p ++ [r])).run d.render = .done j2 none) (h4 : Insert j2 n v.render p = .done b none) : a = b :=
  (insert_inside hd h hn hb hv hr hr' ho ha).1 _ _ _ _ h1 h2 h3 h4

/-- **C137** All four calls end without an error if the mutation is a `Set`, `Delete`, `Add` or `Insert`. -/
theorem C137_insert_runs {d : Doc} {p : List Text} {r r' : Text} {g : Text} {es : List (Elem Json)} {v : Json} {n m : Nat} {o : Edit}
    (hd : d.wf) (h : d.get? p = some (.arr g es)) (hn : n + 1 < es.length ∨ n = 0 ∧ es ≠ []) (hb : (n : Int) ≤ 9223372036854775807) (hv : v.wf)
    (hr : readIndex r = some m) (hr' : readIndex r' = some (if m < n then m else m + 1)) (ho : o.args) (ha : (o.under (p ++ [r])).applies d.root.plain)
    (hl : o.looks = false) :
    ∃ j1 j2 a, Insert d.render n v.render p = .done j1 none ∧ (o.under (p ++ [r'])).run j1 = .done a none ∧
      (o.under (p ++ [r])).run d.render = .done j2 none ∧ Insert j2 n v.render p = .done a none :=
  (insert_inside hd h hn hb hv hr hr' ho ha).2 (by rw [under_looks]; exact hl)

/-- A case: an element comes in where the object is that is changed. -/
example : ∃ j1 j2 a, Insert Sample.doc.render 2 (str "5") Sample.toArr = .done j1 none ∧ Set j1 (str "7") (Sample.toArr ++ [str "3", str "k"]) = .done a none ∧
    Set Sample.doc.render (str "7") (Sample.toArr ++ [str "2", str "k"]) = .done j2 none ∧ Insert j2 2 (str "5") Sample.toArr = .done a none :=
  C137_insert_runs (v := .lit (str "5")) (r := str "2") (o := .set [str "k"] (.lit (str "7"))) (n := 2) (m := 2) Sample.doc_wf Sample.get_arr (by decide +kernel)
    (by decide) (by decide +kernel) (by decide +kernel) (by decide +kernel) (by decide +kernel) (by decide +kernel) rfl

/-- Cases: an element goes in front of an object that is changed, an element is added behind it, a member goes beside an object that is changed. -/
example : (∃ j1 j2 a, Delete Sample.doc.render (Sample.toArr ++ [str "0"]) = .done j1 none ∧
      Set j1 (str "7") (Sample.toArr ++ [str "1", str "k"]) = .done a none ∧
      Set Sample.doc.render (str "7") (Sample.toArr ++ [str "2", str "k"]) = .done j2 none ∧ Delete j2 (Sample.toArr ++ [str "0"]) = .done a none) ∧
    (∃ j1 j2 a, Add Sample.doc.render (str "5") Sample.toArr = .done j1 none ∧ Delete j1 (Sample.toArr ++ [str "2", str "k"]) = .done a none ∧
      Delete Sample.doc.render (Sample.toArr ++ [str "2", str "k"]) = .done j2 none ∧ Add j2 (str "5") Sample.toArr = .done a none) ∧
    (∃ j1 j2 a, Delete Sample.doc.render [str "o", str "r"] = .done j1 none ∧ Set j1 (str "7") [str "o", str "p", str "q"] = .done a none ∧
      Set Sample.doc.render (str "7") [str "o", str "p", str "q"] = .done j2 none ∧ Delete j2 [str "o", str "r"] = .done a none) :=
  ⟨C137_delete_element_runs (r := str "2") (o := .set [str "k"] (.lit (str "7"))) (n := 0) (m := 2) Sample.doc_wf Sample.get_arr (by decide +kernel)
      (by decide +kernel) (by decide +kernel) (by decide) (by decide +kernel) (by decide +kernel) (by decide +kernel) rfl,
    C137_add_runs (v := .lit (str "5")) (r := str "2") (o := .delete [] (str "k")) Sample.doc_wf Sample.get_arr (by decide +kernel) (by decide +kernel)
      (by decide +kernel) rfl,
    C137_delete_member_runs (p := [str "o"]) (q := str "r") (r := str "p") (o := .set [str "q"] (.lit (str "7"))) (x := .lit (str "-1.5e3")) Sample.doc_wf
      Sample.get_obj (by decide +kernel) (by decide +kernel) (by decide +kernel) (by decide +kernel) rfl⟩

/-- ` … "o":{ "p":{"q":true⋯ }, "r":-1.5e3⋯}}␣`, the sample with something added in two places. -/
def Sample.twice (x y : String) : Bytes :=
  str ("\n{\"a\": 1, \"b\\\"]\" :[ 10 ,\"x]\\\\\" , {\"k\":null}, [] ],\"a\":2,\"o\":{ \"p\":{\"q\":true " ++ x ++ "}, \"r\":-1.5e3" ++ y ++ "}} ")

/-- A case for `AddKeyValue`, with another `AddKeyValue` inside a member. -/
example : (Edit.addKeyValue [] (str "w") (.lit (str "7"))).args ∧
    ((Edit.addKeyValue [] (str "w") (.lit (str "7"))).under ([str "o"] ++ [str "p"])).applies Sample.doc.root.plain ∧
    AddKeyValue Sample.doc.render (str "n") (some (str "5")) [str "o"] = .done (Sample.twice "" ",\"n\":5") none ∧
    AddKeyValue (Sample.twice "" ",\"n\":5") (str "w") (some (str "7")) [str "o", str "p"] = .done (Sample.twice ",\"w\":7" ",\"n\":5") none ∧
    AddKeyValue Sample.doc.render (str "w") (some (str "7")) [str "o", str "p"] = .done (Sample.twice ",\"w\":7" "") none ∧
    AddKeyValue (Sample.twice ",\"w\":7" "") (str "n") (some (str "5")) [str "o"] = .done (Sample.twice ",\"w\":7" ",\"n\":5") none := by
  refine ⟨?_, ?_, ?_, ?_, ?_, ?_⟩ <;> decide +kernel

/-- A case for `SetKey`: a value inside the renamed member is set, under the new key and under the old one. -/
example : (Edit.set [str "x"] (.lit (str "7"))).args ∧
    ((Edit.set [str "x"] (.lit (str "7"))).under ([] ++ [str "a"])).applies (Json.obj [] [Sample.mem (str "a") (.obj [] [Sample.mem (str "x") (.lit (str "1"))])]).plain ∧
    SetKey (str "{\"a\":{\"x\":1}}") (str "b") [str "a"] = .done (str "{\"b\":{\"x\":1}}") none ∧
    Set (str "{\"b\":{\"x\":1}}") (str "7") [str "b", str "x"] = .done (str "{\"b\":{\"x\":7}}") none ∧
    Set (str "{\"a\":{\"x\":1}}") (str "7") [str "a", str "x"] = .done (str "{\"a\":{\"x\":7}}") none ∧
    SetKey (str "{\"a\":{\"x\":7}}") (str "b") [str "a"] = .done (str "{\"b\":{\"x\":7}}") none := by
  refine ⟨?_, ?_, ?_, ?_, ?_, ?_⟩ <;> decide +kernel

end Jin
