import Verif.Proof.EntryTree
import Verif.Proof.Num
import Verif.Props.Errors
/-!
# Proof.AddIns — `Add`, `AddKeyValue`, `Insert`, `SetKey` at containers of a document
-/

namespace Jin
open Spec

theorem ws_last {json w : Bytes} {c : UInt8} {i : Nat} (hw : Ws w) (hc : json[i]? = some c) (hs : space c = false)
    (hseg : Seg json (i + 1) w) (hl : json.length = i + 1 + w.length) : lastNS json 0 json.length = some i := by
  rw [hl, lastNS_ws hc hs w hseg hw (by omega), if_neg (by omega)]

theorem space_opn (w : Json) : space (opnOf w) = false ∧ space (clsOf w) = false := by
  cases w <;> exact ⟨rfl, rfl⟩

theorem errEqual_keyNotFound (k : Bytes) : errEqual (some (.keyNotFound k)) codeKeyNotFound = true :=
  (C58_errEqual (.keyNotFound k) 8 8 rfl).1.2 rfl

/-- Where `Add` and the others look for a container. -/
theorem containerSpan_ok_open {d : Doc} {p : List Text} {w : Json} (hd : d.opens) (ht : p = [] → Ws d.trail) (h : d.get? p = some w) (hc : w.isContainer)
    (er : Err) : ∃ A B, d.render = A ++ (w.render ++ B) ∧ (∀ g : Json → Json, (d.upd g p).render = A ++ ((g w).render ++ B)) ∧
      w.wf ∧ containerSpan d.render (opnOf w) (clsOf w) er p = .ok (A.length, A.length + w.render.length) ∧
      bracketsAt d.render (opnOf w) (clsOf w) A.length (A.length + w.render.length) = .ok true ∧
      (if p = [] then Ws A ∧ Ws B else True) := by
  obtain ⟨f, A, B, hf, hv, hA, h1, h2, hw⟩ := doc_around_open hd h
  have hr := render_container hc
  have hs : Seg d.render 0 (A ++ (opnOf w :: (inner w ++ (clsOf w :: B)))) := by
    have := seg_self d.render
    conv at this => arg 3; rw [h1, hr]
    simpa using this
  rw [seg_append, seg_cons, seg_append, seg_cons] at hs
  simp only [Nat.zero_add] at hs
  obtain ⟨s0, s1, s2, s3, s4⟩ := hs
  have hlen : w.render.length = (inner w).length + 2 := by rw [hr]; simp
  have hsp := space_opn w
  have hbr : bracketsAt d.render (opnOf w) (clsOf w) A.length (A.length + w.render.length) = .ok true := by
    unfold bracketsAt
    rw [idx_nat s1]
    simp only [Out.bind_ok, beq_self_eq_true, if_true]
    rw [idx_pred (c := clsOf w) (by omega) (by rw [← s3]; congr 1; omega)]
    simp
  have htot : d.render.length = A.length + w.render.length + B.length := by rw [h1]; simp; omega
  by_cases hp : p = []
  · subst hp
    have hAB : Ws A ∧ Ws B := by
      have w1 := hd.1
      have w3 := ht rfl
      simp only [findAt, Option.some.injEq] at hf
      subst hf
      simp only at hv
      have e : A ++ (w.render ++ B) = d.lead ++ (w.render ++ d.trail) := by
        rw [← h1, Doc.render, hv]
      obtain ⟨e1, e2⟩ := List.append_inj e (by simpa using hA)
      rw [List.append_cancel_left_eq] at e2
      rw [e1, e2]
      exact ⟨w1, w3⟩
    refine ⟨A, B, h1, h2, hw, ?_, hbr, by simp [hAB]⟩
    unfold containerSpan rootSpan
    have f1 : firstNS d.render 0 d.render.length = some A.length := by
      have := firstNS_ws (json := d.render) (hi := d.render.length) (i := 0) (w := A) (c := opnOf w) s0 hAB.1 (by simpa using s1) hsp.1 (by omega)
      simpa using this
    have f2 : lastNS d.render 0 d.render.length = some (A.length + 1 + (inner w).length) :=
      ws_last hAB.2 s3 hsp.2 s4 (by omega)
    simp only [List.length_nil, beq_self_eq_true, if_true]
    rw [f1, f2]
    simp only [s1, s3, beq_self_eq_true, if_true]
    have n1 : (A.length + 1 == d.render.length) = false := by rw [beq_eq_false_iff_ne]; omega
    have n2 : (A.length + 1 + (inner w).length == 0) = false := by rw [beq_eq_false_iff_ne]; omega
    simp only [n1, n2, Bool.false_eq_true, if_false, Out.bind_ok, Out.pure_eq, Out.ok.injEq, Prod.mk.injEq, true_and]
    omega
  · refine ⟨A, B, h1, h2, hw, ?_, hbr, by simp [hp]⟩
    unfold containerSpan
    rw [if_neg (by simpa using hp), core_found_open hd hp hf]
    have : span (d.lead.length + f.pos) f.val = (A.length, A.length + w.render.length) := by
      rw [hv, ← hA]
      cases w <;> simp [Json.isContainer] at hc <;> rfl
    simp [this]

theorem containerSpan_ok {d : Doc} {p : List Text} {w : Json} (hd : d.wf) (h : d.get? p = some w) (hc : w.isContainer)
    (er : Err) : ∃ A B, d.render = A ++ (w.render ++ B) ∧ (∀ g : Json → Json, (d.upd g p).render = A ++ ((g w).render ++ B)) ∧
      w.wf ∧ containerSpan d.render (opnOf w) (clsOf w) er p = .ok (A.length, A.length + w.render.length) ∧
      bracketsAt d.render (opnOf w) (clsOf w) A.length (A.length + w.render.length) = .ok true ∧
      (if p = [] then Ws A ∧ Ws B else True) :=
  containerSpan_ok_open (opens_of_wf hd) (fun _ => (doc_wf.1 hd).2.2) h hc er

/-- Is there an entry? -/
theorem inner_first {json : Bytes} {w : Json} {i : Nat} (hw : w.wf) (hc : w.isContainer) (hs : Seg json i w.render) :
    (ents w = [] → firstNS json (i + 1) (i + w.render.length - 1) = none) ∧
    (ents w ≠ [] → ∃ j, firstNS json (i + 1) (i + w.render.length - 1) = some j) := by
  have hr := render_container hc
  have hlen : w.render.length = (inner w).length + 2 := by rw [hr]; simp
  rw [hr, seg_cons, seg_append] at hs
  constructor
  · intro he
    have hi : inner w = gapOf w := by rw [inner, he]; rfl
    exact firstNS_none hs.2.1 (by rw [hi]; exact (ents_wf hw).1) (by omega)
  · intro he
    obtain ⟨e, es, hes⟩ := List.exists_cons_of_ne_nil he
    have hi : inner w = e.l ++ (e.x ++ (e.r ++ tailEnt es)) := by rw [inner, hes]; simp [renderEnt_cons]
    have hx : ∃ c t, e.x = c :: t ∧ space c = false := by
      obtain ⟨xs', e', ys', r1, -, rfl, -⟩ := rents_split (xs := []) hes
      have := (rents_all hc hw e' (by simp [r1])).2.2.2
      cases hee : e'.e with
      | elem v =>
        rw [hee] at this
        exact ⟨v.first, v.render.tail, by rw [REnt.ent, hee]; exact render_first this, first_ns this⟩
      | member k m l2 v => exact ⟨34, k ++ (34 :: (m ++ (58 :: (l2 ++ v.render)))), by rw [REnt.ent, hee]; rfl, by decide⟩
    obtain ⟨c, t, hx, hsp⟩ := hx
    have hs2 := hs.2.1
    rw [hi, hx, seg_append] at hs2
    simp only [List.cons_append, seg_cons] at hs2
    refine ⟨_, firstNS_ws hs2.1 ((ents_wf hw).2 e (by simp [hes])).1 hs2.2.1 hsp ?_⟩
    have : (inner w).length = e.l.length + (e.x.length + (e.r.length + (tailEnt es).length)) := by rw [hi]; simp
    have : 0 < e.x.length := by rw [hx]; simp
    omega

/-- One more entry at the end. -/
def addEnt (w : Json) (x : Entry) : Json :=
  build w (gapOf w) (if rents w = [] then [⟨gapOf w, x, []⟩] else rents w ++ [⟨[], x, []⟩])

theorem addEnt_ok {w : Json} (hw : w.wf) (hc : w.isContainer) {x : Entry} (hf : Fits w x) (hx : x.ok) :
    (addEnt w x).wf ∧ (addEnt w x).kind = w.kind ∧ (addEnt w x).entries = w.entries ++ [x] := by
  have hg := ((wf_rents hc).1 hw).1
  have hall := rents_all hc hw
  have := build_ok (w := w) (xs := if rents w = [] then [⟨gapOf w, x, []⟩] else rents w ++ [⟨[], x, []⟩]) hc hg (by
    intro y hy
    split at hy
    · simp only [List.mem_singleton] at hy; subst hy; exact ⟨hf, hg, rfl, hx⟩
    · simp only [List.mem_append, List.mem_singleton] at hy
      rcases hy with hy | rfl
      · exact hall y hy
      · exact ⟨hf, rfl, rfl, hx⟩)
  refine ⟨this.1, this.2.1, ?_⟩
  rw [addEnt, this.2.2, rents_entries]
  split
  · rename_i h; simp [h]
  · simp

theorem addEnt_render {w : Json} (hc : w.isContainer) {x : Entry} (hf : Fits w x) :
    (addEnt w x).render = opnOf w :: (inner w ++ ((if ents w = [] then [] else [44]) ++ (x.text ++ [clsOf w]))) := by
  have hfit : ∀ y ∈ (if rents w = [] then [(⟨gapOf w, x, []⟩ : REnt)] else rents w ++ [⟨[], x, []⟩]), Fits w y.e := by
    intro y hy
    split at hy
    · simp only [List.mem_singleton] at hy; subst hy; exact hf
    · simp only [List.mem_append, List.mem_singleton] at hy
      rcases hy with hy | rfl
      · exact rents_fit y hy
      · exact hf
  rw [addEnt, render_build hc hfit, inner, rents_ents]
  by_cases h : rents w = []
  · simp [h, renderEnt, REnt.ent]
  · have : (rents w).map REnt.ent ≠ [] := by simpa using h
    simp only [h, if_false, List.isEmpty_iff, List.append_eq_nil_iff, List.map_append, List.map_cons, List.map_nil, List.map_eq_nil_iff,
      false_and]
    rw [renderEnt_append this]
    simp [tailEnt, renderEnt, REnt.ent]

/-- The replacement that appends an entry. -/
theorem append_ok {json A B : Bytes} {w : Json} (hc : w.isContainer) (h : json = A ++ (w.render ++ B)) (t : Bytes) :
    replace json t (((A.length + w.render.length : Nat) : Int) - 1) (((A.length + w.render.length : Nat) : Int) - 1) =
      .ok (A ++ (opnOf w :: (inner w ++ (t ++ (clsOf w :: B))))) := by
  have hr := render_container hc
  have hlen : w.render.length = (inner w).length + 2 := by rw [hr]; simp
  rw [replace_split (A := A ++ (opnOf w :: inner w)) (m := []) (B := clsOf w :: B) (by rw [h, hr]; simp) (by simp; omega) (by simp; omega)]
  simp

theorem len_ge {A B : Bytes} {w : Json} (hc : w.isContainer) : ¬ (A ++ (w.render ++ B)).length < 2 := by
  rw [render_container hc]; simp; omega

/-- `Add` at an array. -/
theorem add_ok_open {d : Doc} {p : List Text} {g : Text} {es : List (Elem Json)} (hd : d.opens) (ht : p = [] → Ws d.trail) (h : d.get? p = some (.arr g es)) (v : Json) :
    Add d.render v.render p = .done (d.set p (addEnt (.arr g es) (.elem v))).render none := by
  obtain ⟨A, B, h1, h2, hw, h3, h4, -⟩ := containerSpan_ok_open hd ht h rfl .arrayExpected
  have hs : Seg d.render A.length (Json.arr g es).render := by
    have := seg_self d.render
    conv at this => arg 3; rw [h1]
    rw [seg_append, seg_append] at this; simpa using this.2.1
  obtain ⟨f1, f2⟩ := inner_first hw rfl hs
  have hset : ∀ y, (d.set p y).render = A ++ (y.render ++ B) := fun y => h2 (fun _ => y)
  rw [hset, addEnt_render rfl (by rfl)]
  unfold Add
  rw [if_neg (by rw [h1]; exact len_ge rfl)]
  simp only [opnOf, clsOf] at h3 h4
  rw [h3]
  simp only [Mut.bindOut, h4, if_true]
  by_cases he : ents (Json.arr g es) = []
  · rw [f1 he]
    simp only
    rw [append_ok rfl h1]
    simp [Mut.ofOut, he, Entry.text]
  · obtain ⟨j, hj⟩ := f2 he
    rw [hj]
    simp only
    rw [append_ok rfl h1]
    simp [Mut.ofOut, he, Entry.text]

theorem add_ok {d : Doc} {p : List Text} {g : Text} {es : List (Elem Json)} (hd : d.wf) (h : d.get? p = some (.arr g es)) (v : Json) :
    Add d.render v.render p = .done (d.set p (addEnt (.arr g es) (.elem v))).render none :=
  add_ok_open (opens_of_wf hd) (fun _ => (doc_wf.1 hd).2.2) h v

/-- `AddKeyValue` at an object without the key. -/
theorem addkv_ok {d : Doc} {p : List Text} {g : Text} {ms : List (Member Json)} {k : Text} (hd : d.wf) (h : d.get? p = some (.obj g ms))
    (hk : ms = [] ∨ ∃ e, core d.render false (p ++ [k]) = .err e ∧ errEqual (some e) codeKeyNotFound = true) (v : Json) :
    AddKeyValue d.render k (some v.render) p = .done (d.set p (addEnt (.obj g ms) (.member k [] [] v))).render none := by
  obtain ⟨A, B, h1, h2, hw, h3, h4, -⟩ := containerSpan_ok hd h rfl .objectExpected
  have hs : Seg d.render A.length (Json.obj g ms).render := by
    have := seg_self d.render
    conv at this => arg 3; rw [h1]
    rw [seg_append, seg_append] at this; simpa using this.2.1
  obtain ⟨f1, f2⟩ := inner_first hw rfl hs
  have hset : ∀ y, (d.set p y).render = A ++ (y.render ++ B) := fun y => h2 (fun _ => y)
  rw [hset, addEnt_render rfl (by rfl)]
  unfold AddKeyValue addKeyValue
  simp only
  rw [if_neg (by rw [h1]; exact len_ge rfl)]
  simp only [opnOf, clsOf] at h3 h4
  rw [h3]
  simp only [Mut.bindOut, h4, if_true]
  by_cases he : ents (Json.obj g ms) = []
  · rw [f1 he]
    simp only
    rw [append_ok rfl h1]
    simp [Mut.ofOut, he, Entry.text]
  · obtain ⟨j, hj⟩ := f2 he
    obtain ⟨er, hk, hk'⟩ := hk.resolve_left (by rintro rfl; exact he rfl)
    rw [hj, hk]
    simp only [hk', if_true]
    rw [append_ok rfl h1]
    simp [Mut.ofOut, he, Entry.text]

/-- Any success of `AddKeyValue` at an object is of that sort. -/
theorem addkv_done {d : Doc} {p : List Text} {g : Text} {ms : List (Member Json)} {k : Text} (hd : d.wf) (h : d.get? p = some (.obj g ms))
    {v json : Bytes} {er : Option Err} (ha : AddKeyValue d.render k (some v) p = .done json er) :
    (er = none ∧ (ms = [] ∨ ∃ e, core d.render false (p ++ [k]) = .err e ∧ errEqual (some e) codeKeyNotFound = true)) ∨
      (∃ e, er = some e ∧ json = d.render) := by
  obtain ⟨A, B, h1, h2, hw, h3, h4, -⟩ := containerSpan_ok hd h rfl .objectExpected
  have hs : Seg d.render A.length (Json.obj g ms).render := by
    have := seg_self d.render
    conv at this => arg 3; rw [h1]
    rw [seg_append, seg_append] at this; simpa using this.2.1
  obtain ⟨f1, f2⟩ := inner_first hw rfl hs
  unfold AddKeyValue addKeyValue at ha
  simp only at ha
  rw [if_neg (by rw [h1]; exact len_ge rfl)] at ha
  simp only [opnOf, clsOf] at h3 h4
  rw [h3] at ha
  simp only [Mut.bindOut, h4, if_true] at ha
  by_cases he : ms = []
  · rw [f1 (by simp [ents, he])] at ha
    simp only at ha
    rw [append_ok rfl h1] at ha
    simp only [Mut.ofOut, Mut.done.injEq] at ha
    exact Or.inl ⟨ha.2.symm, Or.inl he⟩
  · obtain ⟨j, hj⟩ := f2 (by simpa [ents] using he)
    rw [hj] at ha
    simp only at ha
    cases hc : core d.render false (p ++ [k]) with
    | panic => rw [hc] at ha; simp at ha
    | ok l =>
      rw [hc] at ha
      simp only [Mut.done.injEq] at ha
      exact Or.inr ⟨_, ha.2.symm, ha.1.symm⟩
    | err e =>
      rw [hc] at ha
      simp only at ha
      split at ha
      · rename_i hee
        rw [append_ok rfl h1] at ha
        simp only [Mut.ofOut, Mut.done.injEq] at ha
        exact Or.inl ⟨ha.2.symm, Or.inr ⟨e, rfl, hee⟩⟩
      · simp only [Mut.done.injEq] at ha
        exact Or.inr ⟨_, ha.2.symm, ha.1.symm⟩

/-- Deleting the entry that was added gives back the text. -/
theorem delete_added {d : Doc} {p : List Text} {w : Json} {x : Entry} {q : Text} (hd : d.wf) (h : d.get? p = some w) (hc : w.isContainer)
    (hf : Fits w x) (hx : x.ok) (hq : (addEnt w x).slot? q = some w.entries.length) :
    Delete (d.set p (addEnt w x)).render (p ++ [q]) = .done d.render none := by
  have hw : w.wf := get_wf p (doc_wf.1 hd).2.1 h
  have hadd := addEnt_ok hw hc hf hx
  have hd' : (d.set p (addEnt w x)).wf := doc_upd_wf (f := fun _ => addEnt w x) hd h hadd.1
  have hg : (d.set p (addEnt w x)).get? p = some (addEnt w x) := get_upd p h (fun _ => addEnt w x)
  obtain ⟨xs, e, ys, h1, h2, -, h4, h5⟩ := delete_ok hd' hg hq
  rw [h5]
  have hr : rents (addEnt w x) = if rents w = [] then [⟨gapOf w, x, []⟩] else rents w ++ [⟨[], x, []⟩] := by
    rw [addEnt, rents_build hc]
    intro y hy
    split at hy
    · simp only [List.mem_singleton] at hy; subst hy; exact hf
    · simp only [List.mem_append, List.mem_singleton] at hy
      rcases hy with hy | rfl
      · exact rents_fit y hy
      · exact hf
  have hlen : (rents w).length = xs.length := by rw [h2, rents_entries]; simp
  have hset : (d.set p (addEnt w x)).set p (build (addEnt w x) (e.l ++ e.r) (dropEnt xs e ys)) =
      d.set p (build (addEnt w x) (e.l ++ e.r) (dropEnt xs e ys)) := by
    simp only [Doc.set, Json.set, upd_upd p h]; rfl
  have hself : d.set p w = d := by
    have := upd_self p h (fun _ => w) rfl
    simp only [Doc.set, Json.set, this]
  rw [hset]
  have key : (build (addEnt w x) (e.l ++ e.r) (dropEnt xs e ys)).render = w.render := by
    have hb : ∀ g xs, build (addEnt w x) g xs = build w g xs := by
      intro g xs; unfold addEnt; cases w <;> rfl
    rw [hb]
    by_cases hr0 : rents w = []
    · rw [if_pos hr0, h1] at hr
      rw [hr0] at hlen
      obtain rfl : xs = [] := List.length_eq_zero_iff.1 hlen.symm
      simp only [List.nil_append, List.cons.injEq] at hr
      obtain ⟨rfl, rfl⟩ := hr
      have := build_rents w
      rw [hr0] at this
      simp [dropEnt, this]
    · rw [if_neg hr0, h1] at hr
      obtain ⟨hxs, hey⟩ := List.append_inj hr hlen.symm
      subst hxs
      simp only [List.cons.injEq] at hey
      obtain ⟨rfl, rfl⟩ := hey
      have hdrop : dropEnt (rents w) (⟨[], x, []⟩ : REnt) [] = rents w := by
        unfold dropEnt
        rcases List.eq_nil_or_concat (rents w) with h0 | ⟨l, b, h0⟩
        · exact absurd h0 hr0
        · rw [h0]; simp
      rw [hdrop, render_build hc rents_fit]
      have := render_build hc (g := gapOf w) (xs := rents w) rents_fit
      rw [build_rents] at this
      rw [this]
      simp [hr0]
  rw [set_render_eq (x := build (addEnt w x) (e.l ++ e.r) (dropEnt xs e ys)) h key, hself]

/-! ### Insert -/

theorem InPlace.insert {d : Doc} {p : List Text} {w : Json} {A l x r B : Bytes} {c c' : UInt8} {i : Int} {A' B' : Bytes}
    (h : InPlace d.render (p ++ [itoa i]) w A l x r B c c') (hk : w.kind = .arr)
    (hcs : containerSpan d.render 91 93 .arrayExpected p = .ok (A'.length, B'.length))
    (hbr : bracketsAt d.render 91 93 A'.length B'.length = .ok true) (v : Bytes)
    (hc : (c = 91 ∧ (c' = 93 ∨ c' = 44)) ∨ (c = 44 ∧ (c' = 44 ∨ (c' = 93 ∧ l = [])))) :
    Insert d.render i v p = .done (A ++ (c :: (l ++ (v ++ (44 :: (x ++ (r ++ (c' :: B)))))))) none := by
  obtain ⟨ks, s, e, h1, h2, h3⟩ := h.found
  have hks := h3 hk
  subst hks
  simp only [beq_self_eq_true, if_true] at h2
  have hsp : space c = false ∧ space c' = false := by
    rcases hc with ⟨rfl, rfl | rfl⟩ | ⟨rfl, rfl | ⟨rfl, -⟩⟩ <;> decide
  obtain ⟨g1, g2, g3⟩ := h.edges hsp.1 hsp.2
  unfold Insert
  rw [hcs]
  simp only [Mut.bindOut, hbr, Bool.not_true, Bool.false_eq_true, if_false, h1, h2, g1, idx_nat g2, idx_nat g3]
  have hrep : replace d.render (v ++ [44]) ((A.length + 1 + l.length : Nat) : Int) ((A.length + 1 + l.length : Nat) : Int) =
      .ok (A ++ (c :: (l ++ (v ++ (44 :: (x ++ (r ++ (c' :: B)))))))) := by
    rw [replace_split (A := A ++ (c :: l)) (m := []) (B := x ++ (r ++ (c' :: B))) (by rw [h.text]; simp) (by simp; omega) (by simp; omega)]
    simp
  rcases hc with ⟨rfl, rfl | rfl⟩ | ⟨rfl, rfl | ⟨rfl, rfl⟩⟩
  · rw [if_pos (by decide), hrep]; rfl
  · rw [if_neg (by decide), if_pos (by decide), hrep]; rfl
  · rw [if_neg (by decide), if_pos (by decide), hrep]; rfl
  · rw [if_neg (by decide), if_neg (by decide), if_pos (by decide)]
    rw [replace_split (A := A) (m := []) (B := 44 :: (x ++ (r ++ (93 :: B)))) (by rw [h.text]; simp) (by simp) (by simp)]
    simp [Mut.ofOut]

/-- `Insert` before element `n`. -/
theorem insert_ok_open {d : Doc} {p : List Text} {g : Text} {es : List (Elem Json)} {n : Nat} (hd : d.opens) (ht : p = [] → Ws d.trail)
    (h : d.get? p = some (.arr g es)) (hn : n < es.length) (hb : (n : Int) ≤ 9223372036854775807)
    (hok : n + 1 < es.length ∨ n = 0 ∨ ∃ e, es[n]? = some e ∧ e.l = []) (v : Json) :
    ∃ xs e ys, rents (.arr g es) = xs ++ e :: ys ∧ xs.length = n ∧ (Json.arr g es).wf ∧
      Insert d.render n v.render p =
        .done (d.set p (build (.arr g es) g (xs ++ ⟨e.l, .elem v, []⟩ :: { e with l := [] } :: ys))).render none := by
  have hidx : readIndex (itoa n) = some n := by
    unfold readIndex
    rw [readInt_itoa (by omega) hb]
  have hq : (Json.arr g es).slot? (itoa n) = some n := by simp [Json.slot?, hidx, hn]
  obtain ⟨A, B, xs, e, ys, h1, h2, h3, h4, hw, hcon, hpl⟩ := entry_place_open hd h hq
  obtain ⟨xs', e', ys', r1, rfl, rfl, rfl⟩ := rents_split h3
  refine ⟨xs', e', ys', r1, by simpa using h4, hw, ?_⟩
  have hset : ∀ y, (d.set p y).render = A ++ (y.render ++ B) := fun y => h2 (fun _ => y)
  obtain ⟨A2, B2, -, -, -, c3, c4, -⟩ := containerSpan_ok_open hd ht h rfl .arrayExpected
  simp only [opnOf, clsOf] at c3 c4
  have hxl : xs'.length = n := by simpa using h4
  have hyl : ys'.length + n + 1 = es.length := by
    have := congrArg List.length r1
    simp [rents] at this
    omega
  have hfit : ∀ x ∈ xs' ++ (⟨e'.l, .elem v, []⟩ : REnt) :: { e' with l := [] } :: ys', Fits (.arr g es) x.e := by
    have hall : ∀ x ∈ xs' ++ e' :: ys', Fits (.arr g es) x.e := fun x hx => rents_fit x (by rw [r1]; exact hx)
    intro x hx
    simp only [List.mem_append, List.mem_cons] at hx
    rcases hx with hx | rfl | rfl | hx
    · exact hall x (by simp [hx])
    · rfl
    · exact hall e' (by simp)
    · exact hall x (by simp [hx])
  rw [hset, render_build rfl hfit]
  rw [show A2.length + (Json.arr g es).render.length = (A2 ++ (Json.arr g es).render).length by simp] at c3 c4
  rw [hpl.insert rfl c3 c4 v.render ?_]
  · have hemp : (xs' ++ (⟨e'.l, .elem v, []⟩ : REnt) :: { e' with l := [] } :: ys').isEmpty = false := by simp
    simp only [hemp, Bool.false_eq_true, if_false, List.map_append, List.map_cons, renderEnt_split]
    rw [tailEnt_ne (by simp), renderEnt_cons]
    by_cases hx' : xs' = [] <;> by_cases hy' : ys' = []
    · simp [hx', hy', sepEnt_nil, REnt.ent, tailEnt_nil, Entry.text]
    · have hy : ys'.map REnt.ent ≠ [] := by simpa using hy'
      simp [hx', hy', sepEnt_nil, REnt.ent, tailEnt_ne hy, Entry.text]
    · have hx : xs'.map REnt.ent ≠ [] := by simpa using hx'
      simp [hx', hy', sepEnt_ne hx, REnt.ent, tailEnt_nil, Entry.text]
    · have hx : xs'.map REnt.ent ≠ [] := by simpa using hx'
      have hy : ys'.map REnt.ent ≠ [] := by simpa using hy'
      simp [hx', hy', sepEnt_ne hx, REnt.ent, tailEnt_ne hy, Entry.text]
  · simp only [opnOf, clsOf, List.map_eq_nil_iff]
    by_cases hx' : xs' = [] <;> by_cases hy' : ys' = []
    · simp [hx', hy']
    · simp [hx', hy']
    · right
      simp only [hx', hy', if_true, if_false, true_and]
      right
      have : xs'.length ≠ 0 := by simpa using hx'
      have : ys'.length = 0 := by simp [hy']
      rcases hok with hok | hok | ⟨a, ha, hal⟩
      · omega
      · omega
      · have := congrArg (fun l => l[n]?) r1
        simp only [rents, List.getElem?_map, ha, Option.map_some] at this
        rw [List.getElem?_append_right (by omega), hxl] at this
        simp only [Nat.sub_self, List.getElem?_cons_zero, Option.some.injEq] at this
        subst this
        simpa [REnt.ent] using hal
    · simp [hx', hy']

theorem insert_ok {d : Doc} {p : List Text} {g : Text} {es : List (Elem Json)} {n : Nat} (hd : d.wf)
    (h : d.get? p = some (.arr g es)) (hn : n < es.length) (hb : (n : Int) ≤ 9223372036854775807)
    (hok : n + 1 < es.length ∨ n = 0 ∨ ∃ e, es[n]? = some e ∧ e.l = []) (v : Json) :
    ∃ xs e ys, rents (.arr g es) = xs ++ e :: ys ∧ xs.length = n ∧ (Json.arr g es).wf ∧
      Insert d.render n v.render p =
        .done (d.set p (build (.arr g es) g (xs ++ ⟨e.l, .elem v, []⟩ :: { e with l := [] } :: ys))).render none :=
  insert_ok_open (opens_of_wf hd) (fun _ => (doc_wf.1 hd).2.2) h hn hb hok v

/-! ### SetKey -/

/-- The loop of `SetKey` finds the closing quote of the key. -/
theorem setKey_loop {json new : Bytes} {ks hi : Nat} : ∀ raw : Text, strOk raw → ∀ i, Seg json i (raw ++ [34]) → i + raw.length < hi →
    forUp hi (setKeyBody json new ks) i () = .ret (Mut.ofOut (replace json new ks ((i + raw.length : Nat) : Int))) := by
  refine strOk_ind ?_ ?_ ?_
  · intro i hs hl
    simp only [List.nil_append, seg_cons] at hs
    rw [forUp_ret (by simpa using hl) (by simp only [setKeyBody, hs.1]; rfl)]
    rfl
  · intro b r _ ih i hs hl
    rw [List.cons_append, List.cons_append, seg_cons, seg_cons] at hs
    simp only [List.length_cons] at hl
    rw [forUp_goto (s' := ()) (j := i + 1) (by omega) (by simp [setKeyBody, hs.1]) (by omega), ih _ hs.2.2 (by omega)]
    congr 3; simp; omega
  · intro c r h1 h2 _ ih i hs hl
    rw [List.cons_append, seg_cons] at hs
    simp only [List.length_cons] at hl
    rw [forUp_next (s' := ()) (by omega) (by simp [setKeyBody, hs.1, h1, h2]), ih _ hs.2 (by omega)]
    congr 3; simp; omega

/-- `SetKey` where `core` reports the new key missing. -/
theorem setKey_ok {d : Doc} {p : List Text} {q new : Text} {g : Text} {ms : List (Member Json)} {n : Nat} (hd : d.wf)
    (h : d.get? p = some (.obj g ms)) (hq : memberIdx ms q = some n) (hnew : new ≠ [])
    (hmiss : ∃ e, core d.render false (p ++ [new]) = .err e ∧ errEqual (some e) codeKeyNotFound = true) :
    ∃ A B : Text, d.render = A ++ (q ++ B) ∧ SetKey d.render new (p ++ [q]) = .done (A ++ (new ++ B)) none ∧
      A ++ (new ++ B) = (d.set p (.obj g (ms.modify n fun m => { m with key := new }))).render := by
  obtain ⟨e, hmiss, hcode⟩ := hmiss
  obtain ⟨f, A, B, hf, hv, hA, h1, h2, hw⟩ := doc_around hd h
  obtain ⟨xs, m, ys, hs, hl, hk, hx⟩ := memberIdx_split hq
  subst hk hs hl
  have hm := memberAt_split xs m ys hx
  have hch : childAt (.obj g (xs ++ m :: ys)) m.key = some ⟨1 + ((sepEnt (xs.map memEnt)).length + m.l.length + (m.key.length + m.m.length + m.l2.length + 3)), m.v,
        some (1 + ((sepEnt (xs.map memEnt)).length + m.l.length + 1))⟩ := by
    simp only [childAt, hm, Option.map_some]
  have hf' := findAt_snoc p m.key d.root
  rw [hf, Option.bind_some, hv, hch] at hf'
  have hcore := core_found hd (by simp) hf' false
  have hren : ∀ k : Text, (Json.obj g (xs ++ { m with key := k } :: ys)).render =
      (123 :: (sepEnt (xs.map memEnt) ++ (m.l ++ [34]))) ++ (k ++ (34 :: (m.m ++ (58 :: (m.l2 ++ (m.v.render ++ (m.r ++ (tailEnt (ys.map memEnt) ++ [125])))))))) := by
    intro k
    rw [render_container rfl, inner, if_neg (by simp [ents])]
    simp only [ents, List.map_append, List.map_cons, renderEnt_split]
    simp [memEnt, memText, opnOf, clsOf]
  have hstrk : strOk m.key := (wfMembers_iff.1 (wf_obj.1 hw).2 m (by simp)).2.1
  have htext : d.render = (A ++ (123 :: (sepEnt (xs.map memEnt) ++ (m.l ++ [34])))) ++ (m.key ++
      ((34 :: (m.m ++ (58 :: (m.l2 ++ (m.v.render ++ (m.r ++ (tailEnt (ys.map memEnt) ++ [125]))))))) ++ B)) := by
    rw [h1, hren m.key]; simp
  have hAl : (A ++ (123 :: (sepEnt (xs.map memEnt) ++ (m.l ++ [34])))).length =
      d.lead.length + (f.pos + (1 + ((sepEnt (xs.map memEnt)).length + m.l.length + 1))) := by
    simp [hA]; omega
  refine ⟨_, _, htext, ?_, ?_⟩
  · unfold SetKey
    rw [if_neg (by simpa using hnew), if_neg (by simp), List.dropLast_concat, hmiss]
    simp only [hcode, if_true, hcore, Mut.bindOut, Found.shift, Option.map_some, ksOf]
    rw [if_neg (by omega)]
    simp only [Bool.false_eq_true, if_false, Int.toNat_natCast]
    rw [← hAl]
    have hseg : Seg d.render (A ++ (123 :: (sepEnt (xs.map memEnt) ++ (m.l ++ [34])))).length (m.key ++ [34]) := by
      have := seg_self d.render
      conv at this => arg 3; rw [htext]
      rw [seg_append] at this
      have := this.2
      rw [seg_append, List.cons_append, seg_cons] at this
      rw [seg_append, seg_cons]
      exact ⟨by simpa using this.1, by simpa using this.2.1, Seg.nil _ _⟩
    rw [setKey_loop m.key hstrk _ hseg]
    · simp only
      rw [replace_split htext rfl (by simp)]
      rfl
    · rw [hAl]
      cases m.v <;> simp only [span] <;> omega
  · have hset : ∀ y, (d.set p y).render = A ++ (y.render ++ B) := fun y => h2 (fun _ => y)
    rw [hset]
    have : (xs ++ m :: ys).modify xs.length (fun m => { m with key := new }) = xs ++ { m with key := new } :: ys := by
      rw [List.modify_eq_take_cons_drop (by simp)]; simp
    rw [this, hren new]
    simp

end Jin
