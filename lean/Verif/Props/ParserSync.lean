import Verif.Props.Parser
import Verif.Props.Delete
import Verif.Props.SetKey
import Verif.Proof.Unique
/-!
# Props.ParserSync — C64: the tree of a `Parser` stays in step with its text

`Sync p d`: the text of the parser is that of the well-formed document `d`, and the nodes
below the root show the entries of `d`.
-/

namespace Jin
open Spec

/-- In step, `Parser.Get` gives what `Get` gives for every path the tree resolves. -/
theorem C64_get {p : Parser} {d : Doc} {path : List Text} {nd : Node} (hs : Sync p d)
    (hb : (d.render.length : Int) ≤ 9223372036854775807) (hw : p.core.walk path = .ok nd) :
    p.Get path = Get p.json path := by
  by_cases hp : path = []
  · subst hp; simp [Parser.Get, Get]
  · have hl : (path.length == 0) = false := by cases path <;> simp_all
    obtain ⟨w, h1, -, h3⟩ := walk_get hs hb hw
    have hwf : w.wf := get_wf path (doc_wf.1 hs.wf).2.1 h1
    rw [hs.json, get_ok hs.wf hp h1]
    simp only [Parser.Get, hl, Bool.false_eq_true, if_false, hw]
    exact agree_clean hwf (h3 hp)

theorem kids_tree_step {ds : List Node} {v c : Json} {p : Text} {d : Node} (h : Kids ds v) (hc : v.treeChild? p = some c)
    (hf : ds.find? (fun d => d.label == p) = some d) : Agree d c := by
  cases v with
  | lit _ => cases hc
  | str _ => cases hc
  | obj _ _ => exact kids_step h hc hf
  | arr g es =>
    rw [Kids] at h
    rcases h with ⟨-, h⟩ | h
    · rw [h] at hf; simp at hf
    · obtain ⟨n, e, h1, h2, h3⟩ := kidsE_find h hf
      have i2 := (itoa_plain (0 + n)).2
      simp only [Json.treeChild?] at hc
      split at hc
      · cases hc
      · rw [h1, i2, Nat.zero_add, h2] at hc
        simp only [Option.map_some, Option.some.injEq] at hc
        exact hc ▸ h3

theorem elem_wf {e : Elem Json} : ∀ {es : List (Elem Json)}, wfElems es → e ∈ es → e.v.wf
  | e' :: es, h, he => by
    rw [wfElems_cons] at h
    rcases List.mem_cons.1 he with rfl | he
    · exact h.2.1
    · exact elem_wf h.2.2.2 he

/-- In step, the tree resolves every path that it resolved after `Parse` of the same text:
all keys and all plainly written indices, except the only element of an array. -/
theorem C64_resolves {p : Parser} {d : Doc} (hs : Sync p d) (path : List Text) {w : Json} (h : d.root.treeGet? path = some w) :
    ∃ nd, p.core.walk path = .ok nd ∧ (path ≠ [] → p.Get path = .ok w.content) := by
  have key : ∀ (path : List Text) {n : Node} {v : Json}, Kids n.down v → v.wf → v.treeGet? path = some w →
      ∃ nd, n.walk path = .ok nd ∧ (path ≠ [] → Agree nd w ∧ w.wf) := by
    intro path
    induction path with
    | nil => intro n v _ _ _; exact ⟨n, by rw [Node.walk], by simp⟩
    | cons q qs ih =>
      intro n v hk hv h
      rw [Json.treeGet?] at h
      cases hc : v.treeChild? q with
      | none => rw [hc] at h; cases h
      | some c =>
        rw [hc] at h
        obtain ⟨e, he⟩ := kids_step_found hk hc
        have ha := kids_tree_step hk hc he
        have hcw : c.wf := by
          cases v with
          | lit _ => cases hc
          | str _ => cases hc
          | obj g ms => exact get_wf [q] hv (by simp only [Json.get?]; rw [show Json.child? (.obj g ms) q = some c from hc]; rfl)
          | arr g es =>
            simp only [Json.treeChild?] at hc
            split at hc
            · cases hc
            · cases hx : es[decimalValue q]? with
              | none => rw [hx] at hc; cases hc
              | some x =>
                rw [hx] at hc
                cases hc
                simp only [Json.wf, Bool.and_eq_true] at hv
                exact elem_wf hv.2 (List.mem_of_getElem? hx)
        obtain ⟨nd, h1, h2⟩ := ih ha.2 hcw h
        refine ⟨nd, by rw [Node.walk, he]; exact h1, fun _ => ?_⟩
        cases qs with
        | nil =>
          simp only [Node.walk, Out.ok.injEq] at h1
          subst h1
          simp only [Option.bind_some, Json.treeGet?, Option.some.injEq] at h
          subst h
          exact ⟨ha, hcw⟩
        | cons a b => exact h2 (by simp)
  obtain ⟨nd, h1, h2⟩ := key path hs.kids (doc_wf.1 hs.wf).2.1 h
  refine ⟨nd, h1, fun hp => ?_⟩
  have hl : (path.length == 0) = false := by cases path <;> simp_all
  simp only [Parser.Get, hl, Bool.false_eq_true, if_false, h1]
  exact agree_clean (h2 hp).2 (h2 hp).1

theorem set_render {d : Doc} {path : List Text} {w x : Json} (hd : d.wf) (hp : path ≠ []) (h : d.get? path = some w) :
    Set d.render x.render path = .done (d.set path x).render none := by
  rw [set_ok hd hp h, set_render_eq h (x := .lit x.render) (y := x) (render_lit _)]

/-- `Parser.Set` of a scalar where there was a scalar or an empty container. -/
theorem C64_set_partial {p : Parser} {d : Doc} {path : List Text} {nd : Node} {w x : Json} (hs : Sync p d) (hp : path ≠ [])
    (hw : p.core.walk path = .ok nd) (hg : d.get? path = some w) (hwc : w.entries = []) (hx : x.wf)
    (hxc : x.isContainer = false) : ∃ p', p.Set x.render path = .done p' none ∧ Sync p' (d.set path x) := by
  have hl : (path.length == 0) = false := by cases path <;> simp_all
  have hnil : ∀ {ds : List Node} {v : Json}, v.isContainer = false → (Kids ds v ↔ ds = []) := by
    intro ds v hv
    cases v <;> simp_all [Kids, Json.isContainer]
  have hbare : ∀ {ds : List Node}, Kids ds w → ds = [] := by
    intro ds h
    cases w with
    | lit _ => simpa [Kids] using h
    | str _ => simpa [Kids] using h
    | arr g es =>
      have : es = [] := by simpa [Json.entries] using hwc
      subst this
      rw [Kids] at h
      rcases h with ⟨h, -⟩ | h
      · cases h
      · simpa [KidsE] using h
    | obj g ms =>
      have : ms = [] := by simpa [Json.entries] using hwc
      subst this
      rw [Kids] at h
      simpa [KidsM] using h
  obtain ⟨h1, h2⟩ := sync_upd (f := (·.setValue x.render)) (g := fun _ => x) (tgt := []) (c := path.length - 1) hs hg hw
    (by simp) (by simp) hx (fun h => absurd h hp) (.inl ⟨rfl, hp, rfl, fun ha =>
      ⟨⟨[], [], rfl, rfl, by simp, fun _ => ⟨rfl, rfl⟩⟩, by
        rw [hnil hxc, setValue_down]; exact hbare ha.2⟩⟩)
  refine ⟨_, ?_, h2⟩
  simp only [Parser.Set, hl, Bool.false_eq_true, if_false, hw, scalar_plain hx hxc, hs.json, set_render hs.wf hp hg, Mut.json?]
  rw [updAt_walk (f := (·.setValue x.render)) path hw]
  exact finish_ok h1

theorem scalar_first {x : Json} (hx : x.wf) (hc : x.isContainer = false) (c : UInt8) (h : x.render.head? = some c) : c ≠ 91 ∧ c ≠ 123 := by
  cases x with
  | lit t =>
    cases t with
    | nil => simp [Json.wf] at hx
    | cons a t =>
      simp only [Json.wf, List.all_cons, Bool.and_eq_true] at hx
      simp only [Json.render, List.head?_cons, Option.some.injEq] at h
      subst h
      constructor <;> rintro rfl <;> exact absurd hx.2.1 (by decide)
  | str t =>
    simp only [Json.render] at h
    have : c = 34 := by simpa using h.symm
    subst this
    decide
  | arr _ _ => simp [Json.isContainer] at hc
  | obj _ _ => simp [Json.isContainer] at hc

theorem prefixes_snoc (path : List Bytes) (q : Bytes) : prefixes (path ++ [q]) 1 ((path ++ [q]).length - 1) = prefixes path 1 path.length := by
  simp only [prefixes, List.length_append, List.length_cons, List.length_nil, Nat.zero_add, Nat.add_sub_cancel]
  congr 1
  apply List.map_congr_left
  intro i hi
  rw [List.mem_range'_1] at hi
  rw [List.take_append_of_le_length (by omega)]

/-- `Parser.SetKey` of a member: a new key that the object does not have. -/
theorem C64_setKey_partial {p : Parser} {d : Doc} {path : List Text} {q new g : Text} {ms : List (Member Json)} {n : Nat} {nd : Node}
    (hs : Sync p d) (hw : p.core.walk (path ++ [q]) = .ok nd) (hg : d.get? path = some (.obj g ms)) (hq : memberIdx ms q = some n)
    (hne : new ≠ []) (hnew : ∀ m ∈ ms, m.key ≠ new) (hns : strOk new) (hok : d.clear path new) :
    ∃ p', p.SetKey new (path ++ [q]) = .done p' none ∧ Sync p' (d.set path (.obj g (ms.modify n fun m => { m with key := new }))) := by
  obtain ⟨up, hup, hfind⟩ := walk_snoc path hw
  obtain ⟨A, B, d', e1, e2, e3, rfl, e4, -⟩ := C24_setKey_partial d path q new g ms n hs.wf hg hq hne hnew hns hok
  have hset := get_upd (f := fun _ => Json.obj g (ms.modify n fun m => { m with key := new })) path hg
  have hwf' : (Json.obj g (ms.modify n fun m => { m with key := new })).wf := get_wf path (doc_wf.1 e4).2.1 hset
  have hk : Kids up.down (.obj g ms) := by
    by_cases hp : path = []
    · subst hp
      rw [Node.walk] at hup
      cases hup
      have : d.root = .obj g ms := by simpa [Doc.get?, Json.get?] using hg
      exact this ▸ hs.kids
    · exact (walk_agree path hs.kids hg hp hup).2
  have hany : up.down.any (fun d => d.label == new) = false := by
    rw [Kids] at hk
    have := kidsM_find (p := new) hk
    rw [memberIdx_absent hnew] at this
    rw [List.any_eq_false]
    intro x hx
    exact List.find?_eq_none.1 this x hx
  obtain ⟨h1, h2⟩ := sync_upd (f := fun u => u.setDown (replaceFirst (fun d => d.label == q) (·.setLabel new) u.down))
    (g := fun _ => .obj g (ms.modify n fun m => { m with key := new })) (tgt := [[]]) (c := path.length) hs hg hup
    (by simp) (fun n n' h => by simp [h]) hwf' (fun _ => rfl) (.inr ⟨rfl, rfl, rfl, fun hk => by
      rw [Kids] at hk ⊢
      simpa using kidsM_rename hk hq⟩)
  have hl : ((path ++ [q]).length == 0) = false := by simp
  have hk' : (new.length == 0) = false := by cases new <;> simp_all
  refine ⟨_, ?_, h2⟩
  simp only [Parser.SetKey, hl, hk', Bool.false_eq_true, if_false, hw, List.dropLast_concat, hup, hany, hs.json, e2, Mut.json?]
  rw [prefixes_snoc, updAt_snoc, e3]
  have := refreshQuiet_ok (n := p.core.updAt (fun u => u.setDown (replaceFirst (fun d => d.label == q) (·.setLabel new) u.down)) path) h1
  replace this : refreshQuiet (d.set path (.obj g (ms.modify n fun m => { m with key := new }))).render _ _ = _ := this
  rw [this]
  rfl

theorem walk_kids {p : Parser} {d : Doc} {path : List Text} {nd : Node} {w : Json} (hs : Sync p d) (hg : d.get? path = some w)
    (hw : p.core.walk path = .ok nd) : Kids nd.down w := by
  by_cases hp : path = []
  · subst hp
    rw [Node.walk] at hw
    cases hw
    have : d.root = w := by simpa [Doc.get?, Json.get?] using hg
    exact this ▸ hs.kids
  · exact (walk_agree path hs.kids hg hp hw).2

/-- `Parser.Delete` of a member whose key occurs once in its object, or of the last element
of an array. -/
theorem C64_delete_partial {p : Parser} {d : Doc} {path : List Text} {q : Text} {w : Json} {n : Nat} {nd : Node}
    (hs : Sync p d) (hw : p.core.walk (path ++ [q]) = .ok nd) (hg : d.get? path = some w) (hq : w.slot? q = some n)
    (hu : ∀ i x, w.entries[i]? = some x → i ≠ n → x.key ≠ some q) (hlast : w.kind = .arr → n + 1 = w.entries.length) :
    ∃ p' w', p.Delete (path ++ [q]) = .done p' none ∧ Sync p' (d.set path w') ∧ w'.kind = w.kind ∧ w'.entries = w.entries.eraseIdx n := by
  obtain ⟨up, hup, hfind⟩ := walk_snoc path hw
  obtain ⟨w', e1, e2, e3, e4⟩ := delete_entries hs.wf hg hq
  have hk := walk_kids hs hg hup
  have hlab := find_label hfind
  have hcw : w.isContainer := by cases w <;> simp_all [Json.slot?, Json.isContainer]
  have hcw' : w'.isContainer := by
    have : w'.kind ≠ .scalar := by rw [e3]; cases w <;> simp_all [Json.kind, Json.isContainer]
    revert this
    cases w' <;> simp [Json.kind, Json.isContainer]
  have hkl : KidsL 0 up.down w.entries := by
    cases w with
    | lit _ => cases hcw
    | str _ => cases hcw
    | obj g ms => rw [Kids] at hk; exact (kidsM_iff 0).1 hk
    | arr g es =>
      rw [Kids] at hk
      rcases hk with ⟨-, hk⟩ | hk
      · rw [hk] at hfind; simp at hfind
      · exact kidsE_iff.1 hk
  have hflt : Kids (up.deAttach q).down w' := by
    refine kids_of_entries hcw' ?_
    rw [e4]
    simp only [Node.deAttach, setDown_down]
    cases w with
    | lit _ => cases hcw
    | str _ => cases hcw
    | obj g ms =>
      have hq' : memberIdx ms q = some n := hq
      have hn := hq'
      unfold memberIdx at hn
      rw [List.findIdx?_eq_some_iff_getElem] at hn
      obtain ⟨hlt, hkey, -⟩ := hn
      refine kidsL_filter hkl (by simpa [Json.entries] using hlt) (fun i x hx => ?_) (fun i x _ hx => ?_)
      · constructor
        · intro h
          apply Classical.byContradiction
          intro hi
          refine hu i x hx hi ?_
          simp only [Json.entries, List.getElem?_map, Option.map_eq_some_iff] at hx
          obtain ⟨m, -, rfl⟩ := hx
          simpa [entLabel, Entry.key] using h
        · rintro rfl
          simp only [Json.entries, List.getElem?_map, Option.map_eq_some_iff] at hx
          obtain ⟨m, hm, rfl⟩ := hx
          rw [List.getElem?_eq_getElem hlt] at hm
          cases hm
          simpa [entLabel, Entry.key] using hkey
      · simp only [Json.entries, List.getElem?_map, Option.map_eq_some_iff] at hx
        obtain ⟨m, -, rfl⟩ := hx
        rfl
    | arr g es =>
      have hlast := hlast rfl
      rw [Kids] at hk
      rcases hk with ⟨-, hk⟩ | hk
      · rw [hk] at hfind; simp at hfind
      · obtain ⟨m, e, h1, h2, -⟩ := kidsE_find hk hfind
        rw [Nat.zero_add] at h1
        simp only [Json.slot?, Option.filter_eq_some_iff] at hq
        have := readIndex_plain (by rw [h1]; exact (itoa_plain m).1) hq.1
        rw [h1, (itoa_plain m).2] at this
        subst this
        refine kidsL_filter hkl (by simp only [Json.entries, List.length_map] at hlast ⊢; omega) (fun i x hx => ?_) (fun i x hi hx => ?_)
        · simp only [Json.entries, List.getElem?_map, Option.map_eq_some_iff] at hx
          obtain ⟨y, -, rfl⟩ := hx
          simp only [entLabel, Entry.key, Option.getD_none, Nat.zero_add]
          rw [h1]
          constructor
          · intro h
            have := congrArg decimalValue h
            rwa [(itoa_plain i).2, (itoa_plain n).2] at this
          · rintro rfl; rfl
        · have := (List.getElem?_eq_some_iff.1 hx).1
          omega
  obtain ⟨h1, h2⟩ := sync_upd (f := (·.deAttach q)) (g := fun _ => w') (tgt := [[]]) (c := path.length) hs hg hup
    (by simp [Node.deAttach]) (fun n n' h => by simp [Node.deAttach, h]) e2 (fun _ => hcw') (.inr ⟨rfl, hcw', rfl, fun _ => hflt⟩)
  have hl : ((path ++ [q]).length == 0) = false := by simp
  refine ⟨_, w', ?_, h2, e3, e4⟩
  simp only [Parser.Delete, hl, Bool.false_eq_true, if_false, hw, hs.json, e1, hlab, List.dropLast_concat]
  rw [prefixes_snoc]
  exact finish_ok h1

/-- `Parser.Add` of a scalar to a nested array other than one with a single scalar. -/
theorem C64_add_partial {p : Parser} {d : Doc} {path : List Text} {g : Text} {es : List (Elem Json)} {v : Json} {nd : Node}
    (hs : Sync p d) (hp : path ≠ []) (hw : p.core.walk path = .ok nd) (hg : d.get? path = some (.arr g es)) (hlone : lone es = false)
    (hv : v.wf) (hvc : v.isContainer = false) :
    ∃ p' w', p.Add v.render path = .done p' none ∧ Sync p' (d.set path w') ∧ w'.kind = .arr ∧
      w'.entries = (Json.arr g es).entries ++ [.elem v] := by
  have hl : (path.length == 0) = false := by cases path <;> simp_all
  have h0 : (v.render.length == 0) = false := by
    have := render_ne_nil hv
    cases h : v.render <;> simp_all
  have hwf : (Json.arr g es).wf := get_wf path (doc_wf.1 hs.wf).2.1 hg
  have hk := walk_agree path hs.kids hg hp hw
  have hkl : KidsL 0 nd.down (Json.arr g es).entries := by
    have := hk.2
    rw [Kids] at this
    rcases this with ⟨h, -⟩ | h
    · rw [hlone] at h; cases h
    · exact kidsE_iff.1 h
  obtain ⟨a1, a2, a3⟩ := addEnt_ok (w := .arr g es) (x := .elem v) hwf rfl (show Json.kind _ = _ from rfl) hv
  have hcw : (addEnt (.arr g es) (.elem v)).isContainer := by
    cases h : addEnt (.arr g es) (.elem v) <;> simp_all [Json.kind, Json.isContainer]
  have hnew : Agree (.mk (itoa nd.down.length) v.render []) v :=
    ⟨⟨[], [], rfl, rfl, by simp [Node.value], fun _ => ⟨rfl, rfl⟩⟩, by cases v <;> simp_all [Kids, Json.isContainer, Node.down]⟩
  obtain ⟨h1, h2⟩ := sync_upd (f := (·.addChild (.mk (itoa nd.down.length) v.render []))) (g := fun _ => addEnt (.arr g es) (.elem v))
    (tgt := [[]]) (c := path.length) hs hg hw (by simp [Node.addChild]) (fun n n' h => by simp [Node.addChild, h]) a1 (fun h => absurd h hp)
    (.inr ⟨rfl, hcw, rfl, fun _ => by
      refine kids_of_entries hcw ?_
      rw [a3]
      simp only [Node.addChild, setDown_down]
      refine kidsL_snoc hnew hkl ?_
      simp [entLabel, Entry.key, Node.label, kidsL_length hkl]⟩)
  refine ⟨_, _, ?_, h2, a2, a3⟩
  have hget : p.Get path = .ok (Json.arr g es).render := by
    simp only [Parser.Get, hl, Bool.false_eq_true, if_false, hw]
    exact agree_clean hwf hk
  have he := enclosed_ok (w := .arr g es) rfl .arrayExpected
  simp only [opnOf, clsOf] at he
  simp only [Parser.Add, h0, hl, Bool.false_eq_true, if_false, hget, hw, he, scalar_plain hv hvc, hs.json, add_ok hs.wf hg v]
  exact finish_ok h1

/-- `Parser.AddKeyValue` of a scalar to a nested object, under a key that neither the object nor
the container around it has. -/
theorem C64_addKeyValue_partial {p : Parser} {d : Doc} {path : List Text} {g k : Text} {ms : List (Member Json)} {v : Json} {nd up : Node}
    (hs : Sync p d) (hp : path ≠ []) (hw : p.core.walk path = .ok nd) (hg : d.get? path = some (.obj g ms)) (hk0 : k ≠ []) (hks : strOk k)
    (hms : ∀ m ∈ ms, m.key ≠ k) (hok : d.clear path k) (hup : p.core.walk path.dropLast = .ok up)
    (hsib : ∀ x ∈ up.down, x.label ≠ k) (hv : v.wf) (hvc : v.isContainer = false) :
    ∃ p' w', p.AddKeyValue k v.render path = .done p' none ∧ Sync p' (d.set path w') ∧ w'.kind = .obj ∧
      w'.entries = (Json.obj g ms).entries ++ [.member k [] [] v] := by
  have hl : (path.length == 0) = false := by cases path <;> simp_all
  have h0 : (k.length == 0) = false := by cases k <;> simp_all
  have hwf : (Json.obj g ms).wf := get_wf path (doc_wf.1 hs.wf).2.1 hg
  have hk := walk_agree path hs.kids hg hp hw
  have hkl : KidsL 0 nd.down (Json.obj g ms).entries := by
    have := hk.2
    rw [Kids] at this
    exact (kidsM_iff 0).1 this
  obtain ⟨a1, a2, a3⟩ := addEnt_ok (w := .obj g ms) (x := .member k [] [] v) hwf rfl (show Json.kind _ = _ from rfl) ⟨hks, rfl, rfl, hv⟩
  have hcw : (addEnt (.obj g ms) (.member k [] [] v)).isContainer := by
    cases h : addEnt (.obj g ms) (.member k [] [] v) <;> simp_all [Json.kind, Json.isContainer]
  have hnew : Agree (.mk k v.render []) v :=
    ⟨⟨[], [], rfl, rfl, by simp [Node.value], fun _ => ⟨rfl, rfl⟩⟩, by cases v <;> simp_all [Kids, Json.isContainer, Node.down]⟩
  obtain ⟨h1, h2⟩ := sync_upd (f := (·.addChild (.mk k v.render []))) (g := fun _ => addEnt (.obj g ms) (.member k [] [] v))
    (tgt := [[]]) (c := path.length) hs hg hw (by simp [Node.addChild]) (fun n n' h => by simp [Node.addChild, h]) a1 (fun h => absurd h hp)
    (.inr ⟨rfl, hcw, rfl, fun _ => by
      refine kids_of_entries hcw ?_
      rw [a3]
      simp only [Node.addChild, setDown_down]
      exact kidsL_snoc hnew hkl (by simp [entLabel, Entry.key, Node.label])⟩)
  refine ⟨_, _, ?_, h2, a2, a3⟩
  have hget : p.Get path = .ok (Json.obj g ms).render := by
    simp only [Parser.Get, hl, Bool.false_eq_true, if_false, hw]
    exact agree_clean hwf hk
  have he := enclosed_ok (w := .obj g ms) rfl .objectExpected
  simp only [opnOf, clsOf] at he
  have hany : up.down.any (fun d => d.label == k) = false := by
    rw [List.any_eq_false]; intro x hx; simpa using hsib x hx
  have hcon : (if k.length ≥ 2 then (idx v.render 0).map fun c => c == 91 || c == 123 else .ok false) = .ok false := by
    split
    · have hb := scalar_first hv hvc
      cases hvr : v.render with
      | nil => exact absurd hvr (render_ne_nil hv)
      | cons c t =>
        have hi : idx (c :: t) 0 = .ok c := idx_nat (i := 0) rfl
        have := hb c (by simp [hvr])
        rw [hi]
        simp [Out.map, this.1, this.2]
    · rfl
  have hmiss := core_clear (qs := []) hs.wf hg (memberIdx_absent hms) hok false
  have ha := addkv_ok (k := k) hs.wf hg (.inr ⟨_, hmiss, errEqual_keyNotFound k⟩) v
  simp only [Parser.AddKeyValue, h0, hl, Bool.false_eq_true, if_false, hget, hup, hany, he, hcon, hs.json, ha]
  exact finish_ok h1

/-- `Parser.Add` of a scalar to a root array with entries, other than one with a single scalar, without whitespace around it. -/
theorem C64_root_add_partial {p : Parser} {d : Doc} {g : Text} {es : List (Elem Json)} {v : Json}
    (hs : Sync p d) (hg : d.root = .arr g es) (hlead : d.lead = []) (htrail : d.trail = []) (hne : es ≠ []) (hlone : lone es = false)
    (hv : v.wf) (hvc : v.isContainer = false) :
    ∃ p' w', p.Add v.render [] = .done p' none ∧ Sync p' (d.set [] w') ∧ w'.kind = .arr ∧
      w'.entries = (Json.arr g es).entries ++ [.elem v] := by
  have h0 : (v.render.length == 0) = false := by
    have := render_ne_nil hv
    cases h : v.render <;> simp_all
  have hwf : (Json.arr g es).wf := hg ▸ (doc_wf.1 hs.wf).2.1
  have hkl : KidsL 0 p.core.down (Json.arr g es).entries := by
    have := hs.kids
    rw [hg, Kids] at this
    rcases this with ⟨h, -⟩ | h
    · rw [hlone] at h; cases h
    · exact kidsE_iff.1 h
  obtain ⟨a1, a2, a3⟩ := addEnt_ok (w := .arr g es) (x := .elem v) hwf rfl (show Json.kind _ = _ from rfl) hv
  have hcw : (addEnt (.arr g es) (.elem v)).isContainer := by
    cases h : addEnt (.arr g es) (.elem v) <;> simp_all [Json.kind, Json.isContainer]
  have hnew : Agree (.mk (itoa p.core.down.length) v.render []) v :=
    ⟨⟨[], [], rfl, rfl, by simp [Node.value], fun _ => ⟨rfl, rfl⟩⟩, by cases v <;> simp_all [Kids, Json.isContainer, Node.down]⟩
  have hj : p.json = (Json.arr g es).render := by rw [hs.json, Doc.render, hlead, htrail, hg]; simp
  have hr : (Json.arr g es).render = (91 :: inner (.arr g es)) ++ [93] := render_container rfl
  have he := enclosed_ok (w := .arr g es) rfl .arrayExpected
  have hents : ents (.arr g es) ≠ [] := by simpa [ents] using hne
  have hren := addEnt_render (w := .arr g es) rfl (x := .elem v) (show Json.kind _ = _ from rfl)
  rw [if_neg hents] at hren
  simp only [opnOf, clsOf] at he hren
  refine ⟨⟨p.core.addChild (.mk (itoa p.core.down.length) v.render []), (addEnt (.arr g es) (.elem v)).render⟩, _, ?_, ?_, a2, a3⟩
  · simp only [Parser.Add, h0, Bool.false_eq_true, if_false, Parser.Get, List.length_nil, beq_self_eq_true, if_true, Node.walk, hj, he,
      scalar_plain hv hvc, Bool.false_and, hren]
    rw [hr, beforeLast_ok]
    simp [Entry.text]
  · refine ⟨?_, ?_, hcw, ?_⟩
    · show _ = Doc.render ⟨d.lead, addEnt (.arr g es) (.elem v), d.trail⟩
      simp [Doc.render, hlead, htrail]
    · have h := doc_wf.1 hs.wf
      exact doc_wf.2 ⟨h.1, a1, h.2.2⟩
    · refine kids_of_entries hcw ?_
      show KidsL 0 _ (addEnt (.arr g es) (.elem v)).entries
      rw [a3]
      simp only [Node.addChild, setDown_down]
      refine kidsL_snoc hnew hkl ?_
      simp [entLabel, Entry.key, Node.label, kidsL_length hkl]

/-- `Parser.AddKeyValue` of a scalar to a root object with entries and without whitespace around it, under a new key. -/
theorem C64_root_addKeyValue_partial {p : Parser} {d : Doc} {g k : Text} {ms : List (Member Json)} {v : Json}
    (hs : Sync p d) (hg : d.root = .obj g ms) (hlead : d.lead = []) (htrail : d.trail = []) (hne : ms ≠ []) (hk0 : k ≠ []) (hks : strOk k)
    (hms : ∀ m ∈ ms, m.key ≠ k) (hv : v.wf) (hvc : v.isContainer = false) :
    ∃ p' w', p.AddKeyValue k v.render [] = .done p' none ∧ Sync p' (d.set [] w') ∧ w'.kind = .obj ∧
      w'.entries = (Json.obj g ms).entries ++ [.member k [] [] v] := by
  have h0 : (k.length == 0) = false := by cases k <;> simp_all
  have hwf : (Json.obj g ms).wf := hg ▸ (doc_wf.1 hs.wf).2.1
  have hk : Kids p.core.down (.obj g ms) := hg ▸ hs.kids
  have hany : p.core.down.any (fun d => d.label == k) = false := by
    have hk := hk
    rw [Kids] at hk
    have := kidsM_find (p := k) hk
    rw [memberIdx_absent hms] at this
    rw [List.any_eq_false]
    intro x hx
    exact List.find?_eq_none.1 this x hx
  have hkl : KidsL 0 p.core.down (Json.obj g ms).entries := by rw [Kids] at hk; exact (kidsM_iff 0).1 hk
  obtain ⟨a1, a2, a3⟩ := addEnt_ok (w := .obj g ms) (x := .member k [] [] v) hwf rfl (show Json.kind _ = _ from rfl) ⟨hks, rfl, rfl, hv⟩
  have hcw : (addEnt (.obj g ms) (.member k [] [] v)).isContainer := by
    cases h : addEnt (.obj g ms) (.member k [] [] v) <;> simp_all [Json.kind, Json.isContainer]
  have hnew : Agree (.mk k v.render []) v :=
    ⟨⟨[], [], rfl, rfl, by simp [Node.value], fun _ => ⟨rfl, rfl⟩⟩, by cases v <;> simp_all [Kids, Json.isContainer, Node.down]⟩
  have hcon : (if k.length ≥ 2 then (idx v.render 0).map fun c => c == 91 || c == 123 else .ok false) = .ok false := by
    split
    · have hb := scalar_first hv hvc
      cases hvr : v.render with
      | nil => exact absurd hvr (render_ne_nil hv)
      | cons c t =>
        have hi : idx (c :: t) 0 = .ok c := idx_nat (i := 0) rfl
        have := hb c (by simp [hvr])
        rw [hi]
        simp [Out.map, this.1, this.2]
    · rfl
  have hj : p.json = (Json.obj g ms).render := by rw [hs.json, Doc.render, hlead, htrail, hg]; simp
  have hr : (Json.obj g ms).render = (123 :: inner (.obj g ms)) ++ [125] := render_container rfl
  have he := enclosed_ok (w := .obj g ms) rfl .objectExpected
  have hents : ents (.obj g ms) ≠ [] := by simpa [ents] using hne
  have hren := addEnt_render (w := .obj g ms) rfl (x := .member k [] [] v) (show Json.kind _ = _ from rfl)
  rw [if_neg hents] at hren
  simp only [opnOf, clsOf] at he hren
  refine ⟨⟨p.core.addChild (.mk k v.render []), (addEnt (.obj g ms) (.member k [] [] v)).render⟩, _, ?_, ?_, a2, a3⟩
  · simp only [Parser.AddKeyValue, h0, Bool.false_eq_true, if_false, Parser.Get, List.length_nil, beq_self_eq_true, if_true, hany, hj, he,
      hcon, Bool.false_and, hren]
    rw [hr, beforeLast_ok]
    simp [Entry.text, memberText]
  · refine ⟨?_, ?_, hcw, ?_⟩
    · show _ = Doc.render ⟨d.lead, addEnt (.obj g ms) (.member k [] [] v), d.trail⟩
      simp [Doc.render, hlead, htrail]
    · have h := doc_wf.1 hs.wf
      exact doc_wf.2 ⟨h.1, a1, h.2.2⟩
    · refine kids_of_entries hcw ?_
      show KidsL 0 _ (addEnt (.obj g ms) (.member k [] [] v)).entries
      rw [a3]
      simp only [Node.addChild, setDown_down]
      exact kidsL_snoc hnew hkl (by simp [entLabel, Entry.key, Node.label])

/-! ### Any number of calls -/

/-- A call of one of the mutators. -/
inductive PCall where
  | set (path : List Text) (x : Json)
  | setKey (path : List Text) (q new : Text)
  | delete (path : List Text) (q : Text)
  | add (path : List Text) (v : Json)
  | addKeyValue (path : List Text) (k : Text) (v : Json)

def PCall.run (p : Parser) : PCall → PRes
  | .set path x => p.Set x.render path
  | .setKey path q new => p.SetKey new (path ++ [q])
  | .delete path q => p.Delete (path ++ [q])
  | .add path v => p.Add v.render path
  | .addKeyValue path k v => p.AddKeyValue k v.render path

/-- The path leads to `w`, and the tree made from the text has it. -/
def Shown (d : Doc) (path : List Text) (w : Json) : Prop := d.get? path = some w ∧ d.root.treeGet? path = some w

/-- Calls that keep tree and text in step: set a scalar or an empty container to a scalar; give a member a key that its
object does not have; delete a member with a key of its own or the last element of an array;
add a scalar to an array or object, under a new key (to the root: one with entries, and no whitespace around it). -/
def PCall.ok (d : Doc) : PCall → Prop
  | .set path x => path ≠ [] ∧ x.wf ∧ x.isContainer = false ∧ ∃ w, Shown d path w ∧ w.entries = []
  | .setKey path q new => ∃ g ms n w, Shown d path (.obj g ms) ∧ Shown d (path ++ [q]) w ∧ memberIdx ms q = some n ∧ new ≠ [] ∧
      strOk new ∧ (∀ m ∈ ms, m.key ≠ new) ∧ d.clear path new
  | .delete path q => ∃ u n w, Shown d path u ∧ Shown d (path ++ [q]) w ∧ u.slot? q = some n ∧
      (∀ i x, u.entries[i]? = some x → i ≠ n → x.key ≠ some q) ∧ (u.kind = .arr → n + 1 = u.entries.length)
  | .add path v => v.wf ∧ v.isContainer = false ∧ ∃ g es, Shown d path (.arr g es) ∧ lone es = false ∧
      (path = [] → d.lead = [] ∧ d.trail = [] ∧ es ≠ [])
  | .addKeyValue path k v => v.wf ∧ v.isContainer = false ∧ k ≠ [] ∧ strOk k ∧ ∃ g ms, Shown d path (.obj g ms) ∧ (∀ m ∈ ms, m.key ≠ k) ∧
      if path = [] then d.lead = [] ∧ d.trail = [] ∧ ms ≠ []
      else ∃ u, Shown d path.dropLast u ∧ (∀ (i : Nat) x, u.entries[i]? = some x → x.key.getD (itoa i) ≠ k) ∧ d.clear path k

/-- `d'` is `d` after the call. -/
def PCall.gives (d d' : Doc) : PCall → Prop
  | .set path x => d' = d.set path x
  | .setKey path q new => ∃ g ms n, d.get? path = some (.obj g ms) ∧ memberIdx ms q = some n ∧
      d' = d.set path (.obj g (ms.modify n fun m => { m with key := new }))
  | .delete path q => ∃ u n w', d.get? path = some u ∧ u.slot? q = some n ∧ d' = d.set path w' ∧ w'.kind = u.kind ∧
      w'.entries = u.entries.eraseIdx n
  | .add path v => ∃ u w', d.get? path = some u ∧ d' = d.set path w' ∧ w'.kind = .arr ∧ w'.entries = u.entries ++ [.elem v]
  | .addKeyValue path k v => ∃ u w', d.get? path = some u ∧ d' = d.set path w' ∧ w'.kind = .obj ∧
      w'.entries = u.entries ++ [.member k [] [] v]

/-- A parser made by `Parse` and changed by calls, and the document that its text is. -/
inductive Reached : Parser → Doc → Prop
  | parse {p : Parser} {d : Doc} : d.wf → d.root.isContainer → Parse d.render = .ok p → Reached p d
  | call {p p' : Parser} {d d' : Doc} {c : PCall} {e : Option Err} : Reached p d → c.ok d → c.run p = .done p' e → d'.wf →
      p'.json = d'.render → Reached p' d'

mutual
theorem kids_norm : ∀ (v : Json) {ds : List Node}, Kids ds v.norm ↔ Kids ds v
  | .lit _, ds => Iff.rfl
  | .str _, ds => Iff.rfl
  | .arr g es, ds => by
    have hl : lone (normElems es) = lone es := by
      match es with
      | [] => rfl
      | [e] => obtain ⟨l, v, r⟩ := e; cases v <;> rfl
      | _ :: _ :: _ => rfl
    simp only [Json.norm, Kids, hl, kidsE_norm es]
  | .obj g ms, ds => by simp only [Json.norm, Kids, kidsM_norm ms]
theorem kidsE_norm : ∀ (es : List (Elem Json)) {k : Nat} {ds : List Node}, KidsE k ds (normElems es) ↔ KidsE k ds es
  | [], _, _ => Iff.rfl
  | ⟨l, v, r⟩ :: es, k, ds => by
    have hc : v.norm.isContainer = v.isContainer := by cases v <;> rfl
    simp only [normElems, KidsE, ValOf, norm_render, hc, kids_norm v, kidsE_norm es]
theorem kidsM_norm : ∀ (ms : List (Member Json)) {ds : List Node}, KidsM ds (normMembers ms) ↔ KidsM ds ms
  | [], _ => Iff.rfl
  | ⟨l, key, m, l2, v, r⟩ :: ms, ds => by
    have hc : v.norm.isContainer = v.isContainer := by cases v <;> rfl
    simp only [normMembers, KidsM, ValOf, norm_render, hc, kids_norm v, kidsM_norm ms]
end

/-- Two documents with the same text are shown by the same trees. -/
theorem sync_same {p : Parser} {d e : Doc} (h : Sync p d) (he : e.wf) (hr : e.render = d.render) : Sync p e := by
  obtain ⟨-, hn, -⟩ := doc_unique he h.wf hr
  refine ⟨h.json.trans hr.symm, he, ?_, ?_⟩
  · have h1 : e.root.norm.isContainer = d.root.norm.isContainer := by rw [hn]
    have h2 : ∀ v : Json, v.norm.isContainer = v.isContainer := fun v => by cases v <;> rfl
    rw [h2, h2] at h1
    rw [h1]; exact h.container
  · rw [← kids_norm, hn, kids_norm]; exact h.kids

theorem kidsL_label {k : Nat} {ds : List Node} {xs : List Entry} (h : KidsL k ds xs) : ∀ {x : Node}, x ∈ ds →
    ∃ (i : Nat) (e : Entry), xs[i]? = some e ∧ x.label = entLabel (k + i) e := by
  induction ds generalizing k xs with
  | nil => intro x hx; simp at hx
  | cons d ds ih =>
    intro x hx
    cases xs with
    | nil => exact h.elim
    | cons y ys =>
      rcases List.mem_cons.1 hx with rfl | hx
      · exact ⟨0, y, rfl, h.1⟩
      · obtain ⟨i, e, h1, h2⟩ := ih h.2.2 hx
        exact ⟨i + 1, e, by simpa using h1, by rw [h2]; congr 1; omega⟩

theorem call_ok {p : Parser} {d : Doc} {c : PCall} (hs : Sync p d) (hc : c.ok d) :
    ∃ p' d', c.run p = .done p' none ∧ c.gives d d' ∧ Sync p' d' := by
  have walk : ∀ {path : List Text} {w : Json}, Shown d path w → ∃ nd, p.core.walk path = .ok nd := fun h => by
    obtain ⟨nd, h, -⟩ := C64_resolves hs _ h.2
    exact ⟨nd, h⟩
  cases c with
  | set path x =>
    obtain ⟨hp, hx, hxc, w, hw, hwc⟩ := hc
    obtain ⟨nd, hn⟩ := walk hw
    obtain ⟨p', h1, h2⟩ := C64_set_partial hs hp hn hw.1 hwc hx hxc
    exact ⟨p', _, h1, rfl, h2⟩
  | setKey path q new =>
    obtain ⟨g, ms, n, w, h1, h2, h3, h4, h5, h6, h7⟩ := hc
    obtain ⟨nd, hn⟩ := walk h2
    obtain ⟨p', k1, k2⟩ := C64_setKey_partial hs hn h1.1 h3 h4 h6 h5 h7
    exact ⟨p', _, k1, ⟨g, ms, n, h1.1, h3, rfl⟩, k2⟩
  | delete path q =>
    obtain ⟨u, n, w, h1, h2, h3, h4, h5⟩ := hc
    obtain ⟨nd, hn⟩ := walk h2
    obtain ⟨p', w', k1, k2, k3, k4⟩ := C64_delete_partial hs hn h1.1 h3 h4 h5
    exact ⟨p', _, k1, ⟨u, n, w', h1.1, h3, rfl, k3, k4⟩, k2⟩
  | add path v =>
    obtain ⟨hv, hvc, g, es, h1, h2, h3⟩ := hc
    by_cases hp : path = []
    · subst hp
      obtain ⟨h3, h4, h5⟩ := h3 rfl
      obtain ⟨p', w', k1, k2, k3, k4⟩ := C64_root_add_partial hs (by simpa [Doc.get?, Json.get?] using h1.1) h3 h4 h5 h2 hv hvc
      exact ⟨p', _, k1, ⟨_, w', h1.1, rfl, k3, k4⟩, k2⟩
    obtain ⟨nd, hn⟩ := walk h1
    obtain ⟨p', w', k1, k2, k3, k4⟩ := C64_add_partial hs hp hn h1.1 h2 hv hvc
    exact ⟨p', _, k1, ⟨_, w', h1.1, rfl, k3, k4⟩, k2⟩
  | addKeyValue path k v =>
    obtain ⟨hv, hvc, hk, hks, g, ms, h1, h3, h6⟩ := hc
    by_cases hp : path = []
    · subst hp
      rw [if_pos rfl] at h6
      obtain ⟨p', w', k1, k2, k3, k4⟩ := C64_root_addKeyValue_partial hs (by simpa [Doc.get?, Json.get?] using h1.1) h6.1 h6.2.1 h6.2.2 hk hks h3 hv hvc
      exact ⟨p', _, k1, ⟨_, w', h1.1, rfl, k3, k4⟩, k2⟩
    rw [if_neg hp] at h6
    obtain ⟨u, h2, h4, h5⟩ := h6
    obtain ⟨nd, hn⟩ := walk h1
    obtain ⟨up, hup⟩ := walk h2
    have hsib : ∀ x ∈ up.down, x.label ≠ k := by
      intro x hx
      have hk := walk_kids hs h2.1 hup
      have hkl : KidsL 0 up.down u.entries := by
        cases u with
        | lit _ => simp only [Kids] at hk; rw [hk] at hx; simp at hx
        | str _ => simp only [Kids] at hk; rw [hk] at hx; simp at hx
        | obj g ms => rw [Kids] at hk; exact (kidsM_iff 0).1 hk
        | arr g es =>
          rw [Kids] at hk
          rcases hk with ⟨-, hk⟩ | hk
          · rw [hk] at hx; simp at hx
          · exact kidsE_iff.1 hk
      obtain ⟨i, e, h6, h7⟩ := kidsL_label hkl hx
      rw [h7, entLabel, Nat.zero_add]
      exact h4 i e h6
    obtain ⟨p', w', k1, k2, k3, k4⟩ := C64_addKeyValue_partial hs hp hn h1.1 hk hks h3 h5 hup hsib hv hvc
    exact ⟨p', _, k1, ⟨_, w', h1.1, rfl, k3, k4⟩, k2⟩

theorem session_sync {p : Parser} {d : Doc} (h : Reached p d) : Sync p d := by
  induction h with
  | parse hd hc hp =>
    obtain ⟨q, h1, h2⟩ := parse_sync hd hc
    rw [hp] at h1
    cases h1
    exact h2
  | @call p p' d d' c e _ hc hr hd' hj ih =>
    obtain ⟨p2, d2, h1, -, h2⟩ := call_ok ih hc
    rw [hr] at h1
    cases h1
    exact sync_same h2 hd' (hj.symm.trans h2.json)

/-- **C64** After `Parse` and any number of the calls of `PCall.ok`, `Parser.Get` of every path that
a fresh `Parse` of the present text would resolve gives the value that the text has there, and
of every path that the tree resolves what `Get` gives.  Missing: the other calls
(`C64_fails`). -/
theorem C64_session_partial {p : Parser} {d : Doc} (h : Reached p d) : p.json = d.render ∧
    (∀ path w, path ≠ [] → d.root.treeGet? path = some w → p.Get path = .ok w.content) ∧
    ((d.render.length : Int) ≤ 9223372036854775807 → ∀ path nd, p.core.walk path = .ok nd → p.Get path = Get p.json path) := by
  have hs := session_sync h
  refine ⟨hs.json, fun path w hp ht => ?_, fun hb path nd hw => C64_get hs hb hw⟩
  obtain ⟨nd, -, h2⟩ := C64_resolves hs path ht
  exact h2 hp

/-- The calls succeed and do to the document what they say. -/
theorem C64_call_partial {p : Parser} {d : Doc} {c : PCall} (h : Reached p d) (hc : c.ok d) :
    ∃ p' d', c.run p = .done p' none ∧ c.gives d d' ∧ Reached p' d' := by
  obtain ⟨p', d', h1, h0, h2⟩ := call_ok (session_sync h) hc
  exact ⟨p', d', h1, h0, .call h hc h1 h2.wf h2.json⟩

/-- Calls after which the parser reads something else than its text holds: the elements after a
deleted one keep their labels; `SetKey` renames an element; the second element of an array of one
scalar is labelled `0`; the entries of a container that was set lie one level too deep; a
`SetKey` that fails in the text renames in the tree; of two members with one key `Delete` takes
both out of the tree. -/
theorem C64_fails :
    session (str "{\"a\":[1,2,3]}") (·.Delete [str "a", str "0"]) (fun p => (p.json, p.Get [str "a", str "0"])) =
      some ((str "{\"a\":[2,3]}", .err (.keyNotFound (str "0"))), none) ∧
    Get (str "{\"a\":[2,3]}") [str "a", str "0"] = .ok (str "2") ∧
    session (str "{\"a\":[1,2]}") (·.SetKey (str "x") [str "a", str "1"]) (fun p => (p.json, p.Get [str "a", str "1"], p.Get [str "a", str "x"])) =
      some ((str "{\"a\":[1,2]}", .err (.keyNotFound (str "1")), .ok (str "2")), none) ∧
    session (str "{\"a\":[1]}") (·.Add (str "2") [str "a"]) (fun p => (p.json, p.Get [str "a", str "0"])) =
      some ((str "{\"a\":[1,2]}", .ok (str "2")), none) ∧
    Get (str "{\"a\":[1,2]}") [str "a", str "0"] = .ok (str "1") ∧
    session (str "{\"a\":1}") (·.Set (str "{\"b\":5}") [str "a"]) (fun p => (p.json, p.Get [str "a", str "b"], p.Get [str "a", str "0", str "b"])) =
      some ((str "{\"a\":{\"b\":5}}", .err (.keyNotFound (str "b")), .ok (str "5")), none) ∧
    session (str "{\"a\":{\"x\":1},\"b\":{\"y\":2,\"z\":3}}") (·.SetKey (str "z") [str "a", str "x"]) (fun p => (p.json, p.Get [str "a", str "z"])) =
      some ((str "{\"a\":{\"x\":1},\"b\":{\"y\":2,\"z\":3}}", .ok (str "1")), none) ∧
    session (str "{\"a\":1,\"a\":2}") (·.Delete [str "a"]) (fun p => (p.json, p.Get [str "a"])) =
      some ((str "{\"a\":2}", .err (.keyNotFound (str "a"))), none) := by
  refine ⟨?_, ?_, ?_, ?_, ?_, ?_, ?_, ?_⟩ <;> decide +kernel

/-- Two calls on the sample document that meet the conditions: a scalar set, then a member added
to the object around it. -/
example : ∃ p1 p2 p3 d3, Parse Sample.doc.render = .ok p1 ∧ p1.Set (str "7") Sample.toTrue = .done p2 none ∧
    p2.AddKeyValue (str "new") (str "0") Sample.toObj = .done p3 none ∧ Reached p3 d3 := by
  obtain ⟨p1, h1, -⟩ := parse_sync Sample.doc_wf rfl
  have r1 := Reached.parse Sample.doc_wf rfl h1
  have o1 : PCall.ok Sample.doc (.set Sample.toTrue (.lit (str "7"))) :=
    ⟨by decide +kernel, by decide +kernel, rfl, .lit bTrue, ⟨Sample.get_true, by decide +kernel⟩, rfl⟩
  obtain ⟨p2, d2, h2, g2, r2⟩ := C64_call_partial r1 o1
  have g2 : d2 = Sample.doc.set Sample.toTrue (.lit (str "7")) := g2
  subst g2
  have o2 : PCall.ok (Sample.doc.set Sample.toTrue (.lit (str "7"))) (.addKeyValue Sample.toObj (str "new") (.lit (str "0"))) := by
    refine ⟨by decide +kernel, rfl, by decide +kernel, by decide +kernel, ?_⟩
    have hkd : ((Sample.doc.set Sample.toTrue (.lit (str "7"))).get? Sample.toObj).map Json.kind = some .obj := by decide +kernel
    cases h : (Sample.doc.set Sample.toTrue (.lit (str "7"))).get? Sample.toObj with
    | none => exact absurd h (by decide +kernel)
    | some w =>
      cases w with
      | obj g ms =>
        refine ⟨g, ms, ⟨h, ?_⟩, ?_, ?_⟩
        · rw [← h]; decide +kernel
        · have : ((Sample.doc.set Sample.toTrue (.lit (str "7"))).get? Sample.toObj).all fun w =>
              match w with
              | .obj _ ms => ms.all fun m => m.key != str "new"
              | _ => true := by decide +kernel
          rw [h] at this
          simpa using this
        · rw [if_neg (by decide +kernel)]
          refine ⟨_, ⟨rfl, rfl⟩, ?_, .inl (by decide +kernel)⟩
          intro i x hx
          have : x ∈ (Sample.doc.set Sample.toTrue (.lit (str "7"))).root.entries := List.mem_of_getElem? hx
          have hall : (Sample.doc.set Sample.toTrue (.lit (str "7"))).root.entries.all fun x => x.key.isSome && x.key != some (str "new") := by
            decide +kernel
          rw [List.all_eq_true] at hall
          have := hall x this
          cases hk : x.key with
          | none => rw [hk] at this; cases this
          | some k => rw [hk] at this; simpa using this
      | lit t => rw [h] at hkd; cases hkd
      | str t => rw [h] at hkd; cases hkd
      | arr g es => rw [h] at hkd; cases hkd
  obtain ⟨p3, d3, h3, -, r3⟩ := C64_call_partial r2 o2
  exact ⟨p1, p2, p3, d3, h1, h2, h3, r3⟩

/-- The conditions for the other calls: a key changed in `o`, a member of `o` and the last element
of the array deleted, an element added to the array. -/
example : PCall.ok Sample.doc (.setKey Sample.toObj (str "r") (str "new")) ∧ PCall.ok Sample.doc (.delete Sample.toObj (str "r")) ∧
    PCall.ok Sample.doc (.delete Sample.toArr (str "3")) ∧ PCall.ok Sample.doc (.add Sample.toArr (.lit (str "5"))) := by
  refine ⟨⟨[], Sample.members, 1, .lit (str "-1.5e3"), ⟨Sample.get_obj, by decide +kernel⟩, ⟨by decide +kernel, by decide +kernel⟩, by decide +kernel, by decide +kernel,
      by decide +kernel, by decide +kernel, .inl (by decide +kernel)⟩,
    ⟨.obj [] Sample.members, 1, .lit (str "-1.5e3"), ⟨Sample.get_obj, by decide +kernel⟩, ⟨by decide +kernel, by decide +kernel⟩, by decide +kernel, ?_, nofun⟩,
    ⟨.arr [] Sample.elems, 3, .arr [] [], ⟨Sample.get_arr, by decide +kernel⟩, ⟨by decide +kernel, by decide +kernel⟩, by decide +kernel, ?_, fun _ => by decide +kernel⟩,
    ⟨by decide +kernel, rfl, [], Sample.elems, ⟨Sample.get_arr, by decide +kernel⟩, by decide +kernel, fun h => absurd h (by decide +kernel)⟩⟩
  · intro i x hx hi
    match i with
    | 0 => simp only [Json.entries, Sample.members, List.map_cons, List.getElem?_cons_zero, Option.some.injEq] at hx; subst hx; decide +kernel
    | 1 => exact absurd rfl hi
    | i + 2 => simp [Json.entries, Sample.members] at hx
  · intro i x hx _
    simp only [Json.entries, List.getElem?_map, Option.map_eq_some_iff] at hx
    obtain ⟨e, -, rfl⟩ := hx
    exact nofun

/-- The conditions for calls on the root, and for a scalar in the place of an empty container. -/
example :
    PCall.ok ⟨[], .arr [] [⟨[], .lit (str "1"), []⟩, ⟨[32], .lit (str "2"), []⟩], []⟩ (.add [] (.lit (str "5"))) ∧
    PCall.ok ⟨[], .obj [] [⟨[], str "b", [], [32], .arr [] [], []⟩], []⟩ (.addKeyValue [] (str "a") (.lit (str "2"))) ∧
    PCall.ok ⟨[], .obj [] [⟨[], str "b", [], [32], .arr [] [], []⟩], []⟩ (.set [str "b"] (.lit (str "2"))) ∧
    session (str "[1, 2]") (·.Add (str "5") []) (fun p => (p.json, p.Get [str "2"])) = some ((str "[1, 2,5]", .ok (str "5")), none) ∧
    session (str "{\"b\": []}") (·.AddKeyValue (str "a") (str "2") []) (fun p => (p.json, p.Get [str "a"])) = some ((str "{\"b\": [],\"a\":2}", .ok (str "2")), none) := by
  refine ⟨⟨by decide +kernel, rfl, _, _, ⟨rfl, rfl⟩, rfl, fun _ => ⟨rfl, rfl, by simp⟩⟩,
    ⟨by decide +kernel, rfl, by decide +kernel, by decide +kernel, _, _, ⟨rfl, rfl⟩, by decide +kernel, ?_⟩,
    ⟨by simp, by decide +kernel, rfl, .arr [] [], ⟨by decide +kernel, by decide +kernel⟩, rfl⟩, by decide +kernel, by decide +kernel⟩
  rw [if_pos rfl]
  exact ⟨rfl, rfl, by simp⟩

end Jin
