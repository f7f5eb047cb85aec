import Verif.Props.Session
import Verif.Props.Algebra
/-!
# Props.Commute — C133: mutations in separate parts of a document commute
-/

namespace Jin
open Spec

/-- The value that a mutation changes: for `Set` the value itself, for the others the container. -/
def Spec.Edit.at : Edit → List Text
  | .set p _ | .delete p _ | .add p _ | .insert p _ _ | .addKeyValue p _ _ | .setKey p _ _ => p

/-- The same mutation of a value at `s` followed by the path. -/
def Spec.Edit.under (s : List Text) : Edit → Edit
  | .set p v => .set (s ++ p) v
  | .delete p q => .delete (s ++ p) q
  | .add p v => .add (s ++ p) v
  | .insert p n v => .insert (s ++ p) n v
  | .addKeyValue p k v => .addKeyValue (s ++ p) k v
  | .setKey p q k => .setKey (s ++ p) q k

theorem under_nil (o : Edit) : o.under [] = o := by cases o <;> rfl

/-- What a mutation that applies and succeeds puts in place of a value depends on nothing but this value and the rest of the path. -/
theorem edit_under (o : Edit) (w : Json) (ha : o.args) : ∃ w' : Json, ∀ (s : List Text) (d : Doc), d.wf → d.get? (s ++ o.at) = some w →
    (o.under s).applies d.root.plain → ∀ json, (o.under s).run d.render = .done json none →
      json = (d.set (s ++ o.at) w').render ∧ (d.set (s ++ o.at) w').wf := by
  replace ha := args_prop ha
  cases o with
  | set p v =>
    simp only [Edit.at, Edit.under]
    refine ⟨v, fun s d hd hw hv json h => ?_⟩
    obtain ⟨hp, -⟩ := applies_prop hv
    obtain ⟨h1, h2, -⟩ := C08_get_after_set d (s ++ p) w v hd hp hw ha
    rw [Edit.run, h1] at h
    cases h
    exact ⟨rfl, h2⟩
  | delete p q =>
    simp only [Edit.at, Edit.under]
    by_cases hex : ∃ xs e ys, w.slot? q = some xs.length ∧ rents w = xs ++ e :: ys
    · obtain ⟨xs, e, ys, hn, r1⟩ := hex
      refine ⟨build w (e.l ++ e.r) (dropEnt xs e ys), fun s d hd hw hv json h => ?_⟩
      obtain ⟨xs', e', ys', k1, k2, hwf, hcon, k3⟩ := delete_ok hd hw hn
      rw [r1] at k1
      obtain ⟨rfl, k4⟩ := List.append_inj k1 k2.symm
      obtain ⟨rfl, rfl⟩ := List.cons.inj k4
      rw [Edit.run, k3] at h
      cases h
      have hall := rents_all hcon hwf
      rw [r1] at hall
      have hwe := hall e (by simp)
      have hb := build_ok (xs := dropEnt xs e ys) hcon (ws_append.2 ⟨hwe.2.1, hwe.2.2.1⟩)
        (dropEnt_all (P := fun x => Fits w x.e ∧ Ws x.l ∧ Ws x.r ∧ x.e.ok) xs e ys hall
          (fun a b ha hb => ⟨hb.1, ws_append.2 ⟨ha.2.1, hb.2.1⟩, hb.2.2⟩)
          (fun a b ha hb => ⟨hb.1, hb.2.1, ws_append.2 ⟨hb.2.2.1, ha.2.2.1⟩, hb.2.2.2⟩))
      exact ⟨rfl, doc_upd_wf (f := fun _ => _) hd hw hb.1⟩
    · refine ⟨w, fun s d hd hw hv json h => absurd ?_ hex⟩
      obtain ⟨c, hc⟩ := applies_prop hv
      obtain ⟨c, hc, -⟩ := of_get_plain hc
      unfold Doc.get? at hc
      rw [get_append, Option.bind_eq_some_iff] at hc
      obtain ⟨w2, hw2, hc⟩ := hc
      cases hw.symm.trans hw2
      rw [get_cons_eq, Option.bind_eq_some_iff] at hc
      obtain ⟨n, hn, -⟩ := hc
      obtain ⟨xs, e, ys, k1, k2, -⟩ := delete_ok hd hw hn
      exact ⟨xs, e, ys, by rw [k2]; exact hn, k1⟩
  | add p v =>
    simp only [Edit.at, Edit.under]
    refine ⟨addEnt w (.elem v), fun s d hd hw hv json h => ?_⟩
    obtain ⟨es, hc⟩ := applies_prop hv
    obtain ⟨w2, hw2, hpl⟩ := of_get_plain hc
    cases hw.symm.trans hw2
    obtain ⟨hk, rfl⟩ := of_plain_arr hpl
    cases w with
    | arr g es =>
      rw [Edit.run, add_ok hd hw v] at h
      cases h
      exact ⟨rfl, doc_upd_wf (f := fun _ => _) hd hw (addEnt_ok (x := .elem v) (get_wf (s ++ p) (doc_wf.1 hd).2.1 hw) rfl rfl ha).1⟩
    | _ => cases hk
  | insert p n v =>
    simp only [Edit.at, Edit.under]
    by_cases hex : ∃ xs e ys, rents w = xs ++ e :: ys ∧ xs.length = n
    · obtain ⟨xs, e, ys, r1, rfl⟩ := hex
      refine ⟨build w (gapOf w) (xs ++ ⟨e.l, .elem v, []⟩ :: { e with l := [] } :: ys), fun s d hd hw hv json h => ?_⟩
      obtain ⟨es, hc, hn, hok⟩ := applies_prop hv
      obtain ⟨w2, hw2, hpl⟩ := of_get_plain hc
      cases hw.symm.trans hw2
      obtain ⟨hk, rfl⟩ := of_plain_arr hpl
      cases w with
      | arr g es =>
        obtain ⟨xs', e', ys', k1, k2, hwf, k3⟩ := insert_ok (n := xs.length) hd hw (by simpa [Json.entries] using hn) ha.2
          (by rcases hok with h | h
              · exact .inl (by simpa [Json.entries] using h)
              · exact .inr (.inl h)) v
        rw [r1] at k1
        obtain ⟨rfl, k4⟩ := List.append_inj k1 k2.symm
        obtain ⟨rfl, rfl⟩ := List.cons.inj k4
        rw [Edit.run, k3] at h
        cases h
        have hall := rents_all (w := .arr g es) rfl hwf
        rw [r1] at hall
        have hwe := hall e (by simp)
        refine ⟨rfl, doc_upd_wf (f := fun _ => _) hd hw (build_ok (w := .arr g es) rfl (wf_arr.1 hwf).1 ?_).1⟩
        intro x hx
        simp only [List.mem_append, List.mem_cons] at hx
        rcases hx with hx | rfl | rfl | hx
        · exact hall x (by simp [hx])
        · exact ⟨rfl, hwe.2.1, rfl, ha.1⟩
        · exact ⟨hwe.1, rfl, hwe.2.2⟩
        · exact hall x (by simp [hx])
      | _ => cases hk
    · refine ⟨w, fun s d hd hw hv json h => absurd ?_ hex⟩
      obtain ⟨es, hc, hn, hok⟩ := applies_prop hv
      obtain ⟨w2, hw2, hpl⟩ := of_get_plain hc
      cases hw.symm.trans hw2
      obtain ⟨hk, rfl⟩ := of_plain_arr hpl
      have hl : n < (rents w).length := by rw [rents_entries] at hn; simpa using hn
      exact ⟨(rents w).take n, (rents w)[n], (rents w).drop (n + 1), by simp, by simp; omega⟩
  | addKeyValue p k v =>
    simp only [Edit.at, Edit.under]
    refine ⟨addEnt w (.member k [] [] v), fun s d hd hw hv json h => ?_⟩
    obtain ⟨ms, hc⟩ := applies_prop hv
    obtain ⟨w2, hw2, hpl⟩ := of_get_plain hc
    cases hw.symm.trans hw2
    obtain ⟨hk, rfl⟩ := of_plain_obj hpl
    cases w with
    | obj g ms =>
      rcases addkv_done hd hw h with ⟨-, hc⟩ | ⟨e, he, -⟩
      · rw [Edit.run, addkv_ok hd hw hc v] at h
        cases h
        exact ⟨rfl, doc_upd_wf (f := fun _ => _) hd hw (addEnt_ok (x := .member k [] [] v) (get_wf (s ++ p) (doc_wf.1 hd).2.1 hw) rfl rfl ⟨ha.1, rfl, rfl, ha.2⟩).1⟩
      · cases he
    | _ => cases hk
  | setKey p q new =>
    simp only [Edit.at, Edit.under]
    by_cases hex : ∃ g ms n, w = .obj g ms ∧ memberIdx ms q = some n
    · obtain ⟨g, ms, n, rfl, hn⟩ := hex
      refine ⟨.obj g (ms.modify n fun m => { m with key := new }), fun s d hd hw hv json h => ?_⟩
      by_cases hx : ∃ m ∈ ms, m.key = new
      · rw [Edit.run, C25_setKey_exists d (s ++ p) q new g ms hd hw (.inr hx)] at h
        cases h
      · rcases C24_all_or_nothing_partial d (s ++ p) q new g ms n hd hw hn (fun m hm he => hx ⟨m, hm, he⟩) ha _ _ h with ⟨h0, -⟩ | ⟨-, d', h1, rfl, h2, -⟩
        · exact absurd rfl h0
        · exact ⟨h1, h2⟩
    · refine ⟨w, fun s d hd hw hv json h => absurd ?_ hex⟩
      obtain ⟨ms, hc, m, hm, hmq⟩ := applies_prop hv
      obtain ⟨w2, hw2, hpl⟩ := of_get_plain hc
      cases hw.symm.trans hw2
      obtain ⟨hk, rfl⟩ := of_plain_obj hpl
      cases w with
      | obj g ms =>
        refine ⟨g, ms, ?_⟩
        cases hi : memberIdx ms q with
        | some n => exact ⟨n, rfl, rfl⟩
        | none =>
          simp only [Json.entries, List.map_map, List.mem_map, Function.comp_def, Entry.key, Option.getD_some] at hm
          obtain ⟨x, hx, rfl⟩ := hm
          exact absurd hmq (memberIdx_none hi x hx)
      | _ => cases hk

theorem edit_local (o : Edit) (w : Json) (ha : o.args) : ∃ w' : Json, ∀ d : Doc, d.wf → d.get? o.at = some w → o.applies d.root.plain →
    ∀ json, o.run d.render = .done json none → json = (d.set o.at w').render ∧ (d.set o.at w').wf := by
  obtain ⟨w', h⟩ := edit_under o w ha
  refine ⟨w', fun d hd hw hv json hr => ?_⟩
  exact h [] d hd hw (by rw [under_nil]; exact hv) json (by rw [under_nil]; exact hr)

theorem plain_get_append (t : Plain) : ∀ (p : List Text) (q : Text), t.get? (p ++ [q]) = (t.get? p).bind fun c => c.get? [q]
  | [], q => rfl
  | k :: p, q => by
    rw [List.cons_append, Plain.get?, Plain.get?]
    cases t.child? k with
    | none => rfl
    | some c => exact plain_get_append c p q

theorem applies_at {o : Edit} {t : Plain} (h : o.applies t) : ∃ c, t.get? o.at = some c := by
  replace h := applies_prop h
  cases o with
  | set p v => exact h.2
  | delete p q =>
    obtain ⟨c, h⟩ := h
    rw [plain_get_append, Option.bind_eq_some_iff] at h
    exact ⟨_, h.choose_spec.1⟩
  | add p v => exact ⟨_, h.choose_spec⟩
  | insert p n v => exact ⟨_, h.choose_spec.1⟩
  | addKeyValue p k v => exact ⟨_, h.choose_spec⟩
  | setKey p q new => exact ⟨_, h.choose_spec.1⟩

theorem applies_local {o : Edit} {t u : Plain} (h : u.get? o.at = t.get? o.at) (ha : o.applies t) : o.applies u := by
  cases o <;> simp only [Edit.at] at h <;> simp only [Edit.applies, plain_get_append, h] at ha ⊢ <;> exact ha

/-- **C133** Two mutations of values on diverging paths, both of which apply: if no call reports an error, the text is the same in either order, byte for
byte. -/
theorem C133_commute {d : Doc} {o u : Edit} {j1 j2 a b : Bytes} (hd : d.wf) (ho : o.args) (hu : u.args) (hvo : o.applies d.root.plain)
    (hvu : u.applies d.root.plain) (hdv : d.diverge o.at u.at) (h1 : o.run d.render = .done j1 none) (h2 : u.run j1 = .done a none)
    (h3 : u.run d.render = .done j2 none) (h4 : o.run j2 = .done b none) : a = b ∧ ∃ d' : Doc, d'.wf ∧ a = d'.render := by
  obtain ⟨c, hc⟩ := applies_at hvo
  obtain ⟨w, hw, -⟩ := of_get_plain hc
  obtain ⟨c', hc'⟩ := applies_at hvu
  obtain ⟨x, hx, -⟩ := of_get_plain hc'
  obtain ⟨w', ew⟩ := edit_local o w ho
  obtain ⟨x', ex⟩ := edit_local u x hu
  obtain ⟨rfl, d1⟩ := ew d hd hw hvo _ h1
  obtain ⟨rfl, d2⟩ := ex d hd hx hvu _ h3
  have g1 : (d.set o.at w').get? u.at = some x := by rw [← hx]; exact get_upd_diverge _ hdv _
  have g2 : (d.set u.at x').get? o.at = some w := by rw [← hw]; exact get_upd_diverge _ (diverge_comm _ hdv) _
  have v1 : u.applies (d.set o.at w').root.plain := by
    refine applies_local ?_ hvu
    rw [get_plain, get_plain]
    exact congrArg (Option.map Json.plain) (g1.trans hx.symm)
  have v2 : o.applies (d.set u.at x').root.plain := by
    refine applies_local ?_ hvo
    rw [get_plain, get_plain]
    exact congrArg (Option.map Json.plain) (g2.trans hw.symm)
  obtain ⟨rfl, d3⟩ := ex _ d1 g1 v1 _ h2
  obtain ⟨rfl, -⟩ := ew _ d2 g2 v2 _ h4
  refine ⟨?_, _, d3, rfl⟩
  congr 1
  simp only [Doc.set, Json.set]
  congr 1
  exact upd_comm _ hdv _ _

/-- **C133** `Set`, `Delete`, `Add` and `Insert` report no error, in either order. -/
theorem C133_runs {d : Doc} {o u : Edit} (hd : d.wf) (ho : o.args) (hu : u.args) (hvo : o.applies d.root.plain)
    (hvu : u.applies d.root.plain) (hdv : d.diverge o.at u.at) (hl : o.looks = false) (hl' : u.looks = false) :
    ∃ j1 j2 a, o.run d.render = .done j1 none ∧ u.run j1 = .done a none ∧ u.run d.render = .done j2 none ∧ o.run j2 = .done a none := by
  obtain ⟨j1, h1⟩ := C127_runs hd ho hvo hl
  obtain ⟨j2, h3⟩ := C127_runs hd hu hvu hl'
  have key : ∀ {o u : Edit} {j : Bytes}, o.args → u.args → o.applies d.root.plain → u.applies d.root.plain → d.diverge o.at u.at →
      u.looks = false → o.run d.render = .done j none → ∃ a, u.run j = .done a none := by
    intro o u j ho hu hvo hvu hdv hl h
    obtain ⟨c, hc⟩ := applies_at hvo
    obtain ⟨w, hw, -⟩ := of_get_plain hc
    obtain ⟨w', ew⟩ := edit_local o w ho
    obtain ⟨rfl, d1⟩ := ew d hd hw hvo _ h
    refine C127_runs d1 hu (applies_local ?_ hvu) hl
    rw [get_plain, get_plain]
    exact congrArg (Option.map Json.plain) (get_upd_diverge _ hdv _)
  obtain ⟨a, h2⟩ := key ho hu hvo hvu hdv hl' h1
  obtain ⟨b, h4⟩ := key hu ho hvu hvo (diverge_comm _ hdv) hl h3
  obtain ⟨rfl, -⟩ := C133_commute hd ho hu hvo hvu hdv h1 h2 h3 h4
  exact ⟨j1, j2, a, h1, h2, h3, h4⟩

/-- `AddKeyValue` may be refused in one order only: of `z` to `a` and to `b` of `{"a":{"x":1},"b":{"y":2}}` both succeed in this order, and in the other one
the second call finds the `z` of `b`. -/
theorem C133_refused : ∃ d : Doc, ∃ o u : Edit, d.wf ∧ o.args ∧ u.args ∧ o.applies d.root.plain ∧ u.applies d.root.plain ∧ d.diverge o.at u.at ∧
    ∃ j1 j2 a, o.run d.render = .done j1 none ∧ u.run j1 = .done a none ∧ u.run d.render = .done j2 none ∧
      o.run j2 = .done j2 (some (.keyAlreadyExist (str "z"))) :=
  ⟨⟨[], .obj [] [Sample.mem (str "a") (.obj [] [Sample.mem (str "x") (.lit (str "1"))]), Sample.mem (str "b") (.obj [] [Sample.mem (str "y") (.lit (str "2"))])], []⟩,
    .addKeyValue [str "a"] (str "z") (.lit (str "3")), .addKeyValue [str "b"] (str "z") (.lit (str "4")), by decide +kernel, by decide +kernel, by decide +kernel,
    by decide +kernel, by decide +kernel, diverge_of (a := 0) (b := 1) (by decide +kernel) (by decide +kernel) (.inl (by decide)),
    str "{\"a\":{\"x\":1,\"z\":3},\"b\":{\"y\":2}}", str "{\"a\":{\"x\":1},\"b\":{\"y\":2,\"z\":4}}",
    str "{\"a\":{\"x\":1,\"z\":3},\"b\":{\"y\":2,\"z\":4}}", by decide +kernel, by decide +kernel, by decide +kernel, by decide +kernel⟩

/-- A case: `Add` to one array and `Delete` from an object. -/
example : ∃ j1 j2 a, Add Sample.doc.render (str "7") Sample.toArr = .done j1 none ∧ Delete j1 [str "o", str "p"] = .done a none ∧
    Delete Sample.doc.render [str "o", str "p"] = .done j2 none ∧ Add j2 (str "7") Sample.toArr = .done a none :=
  C133_runs (o := .add Sample.toArr (.lit (str "7"))) (u := .delete [str "o"] (str "p")) Sample.doc_wf (by decide +kernel) (by decide +kernel) (by decide +kernel)
    (by decide +kernel) (diverge_of (a := 1) (b := 3) (by decide +kernel) (by decide +kernel) (.inl (by decide))) rfl rfl

end Jin
