import Verif.Props.Delete
import Verif.Props.SetKey
import Verif.Props.Types
/-!
# Props.Algebra — C81–C87: how the functions combine
-/

namespace Jin
open Spec

/-! ### C81, C82: long paths -/

/-- A container of a document, as a document. -/
theorem sub_doc {d : Doc} {p : List Text} {u : Json} (hd : d.wf) (h : d.get? p = some u) : (⟨[], u, []⟩ : Doc).wf :=
  doc_wf.2 ⟨rfl, get_wf p (doc_wf.1 hd).2.1 h, rfl⟩

theorem sub_render (u : Json) : (⟨[], u, []⟩ : Doc).render = u.render := by simp [Doc.render]

/-- What can be looked into is a container, and is shown with its brackets. -/
theorem content_of_get {u w : Json} {q : List Text} (hq : q ≠ []) (h : u.get? q = some w) : u.content = u.render := by
  obtain ⟨x, xs, rfl⟩ := List.exists_cons_of_ne_nil hq
  cases u <;> first | rfl | simp [Json.get?, Json.child?] at h

/-- **C81** `Get` of a long path is `Get` of its second part in what `Get` of its first part returns. -/
theorem C81_get_compose (d : Doc) (p q : List Text) (w : Json) (hd : d.wf) (hq : q ≠ []) (h : d.get? (p ++ q) = some w) :
    ∃ part, Get d.render p = .ok part ∧ Get part q = Get d.render (p ++ q) ∧ Get part q = .ok w.content := by
  have h' := h
  unfold Doc.get? at h'
  rw [get_append, Option.bind_eq_some_iff] at h'
  obtain ⟨u, hu, hw⟩ := h'
  have e : Get d.render (p ++ q) = .ok w.content := get_ok hd (by simp [hq]) h
  by_cases hp : p = []
  · subst hp
    exact ⟨_, rfl, rfl, e⟩
  · have e1 := get_ok hd hp hu
    have e2 := get_ok (sub_doc hd hu) hq (w := w) hw
    rw [sub_render, ← content_of_get hq hw] at e2
    exact ⟨_, e1, by rw [e2, e], e2⟩

example : ∃ part, Get Sample.doc.render [str "o"] = .ok part ∧ part = str "{ \"p\":{\"q\":true }, \"r\":-1.5e3}" ∧
    Get part [str "p", str "q"] = Get Sample.doc.render Sample.toTrue := by
  obtain ⟨part, h1, h2, -⟩ := C81_get_compose Sample.doc [str "o"] [str "p", str "q"] _ Sample.doc_wf (by decide) Sample.get_true
  have : Get Sample.doc.render [str "o"] = .ok (str "{ \"p\":{\"q\":true }, \"r\":-1.5e3}") := by decide +kernel
  exact ⟨part, h1, by rw [this] at h1; exact (Out.ok.inj h1).symm, h2⟩

/-- **C82** `Set` at a long path is: take the part the first half leads to, `Set` in it, `Set` the
result in place of the part. -/
theorem C82_set_compose (d : Doc) (p q : List Text) (w : Json) (new : Bytes) (hd : d.wf) (hp : p ≠ []) (hq : q ≠ [])
    (h : d.get? (p ++ q) = some w) :
    ∃ part part', Get d.render p = .ok part ∧ Set part new q = .done part' none ∧
      Set d.render part' p = Set d.render new (p ++ q) := by
  have h' := h
  unfold Doc.get? at h'
  rw [get_append, Option.bind_eq_some_iff] at h'
  obtain ⟨u, hu, hw⟩ := h'
  have e1 := get_ok hd hp hu
  have e2 := set_ok (sub_doc hd hu) hq (w := w) hw new
  rw [sub_render, ← content_of_get hq hw] at e2
  refine ⟨_, _, e1, e2, ?_⟩
  rw [set_ok hd hp hu, set_ok hd (by simp [hq]) h]
  have : (⟨[], u, []⟩ : Doc).set q (.lit new) = ⟨[], u.set q (.lit new), []⟩ := rfl
  rw [this, sub_render, set_render_eq hu (render_lit (u.set q (.lit new)).render)]
  congr 2
  simp only [Doc.set, Json.set]
  rw [upd_append]
  congr 1
  obtain ⟨g, hg⟩ : ∃ g : Json → Json, g = fun w => w.upd (fun _ => .lit new) q := ⟨_, rfl⟩
  rw [show (fun w : Json => w.upd (fun _ => .lit new) q) = g from hg.symm]
  have : Json.upd u (fun _ => .lit new) q = g u := by rw [hg]
  rw [this]
  exact upd_congr p hu rfl

example : ∃ part part', Get Sample.doc.render [str "o"] = .ok part ∧ Set part (str "[0]") [str "p", str "q"] = .done part' none ∧
    part' = str "{ \"p\":{\"q\":[0] }, \"r\":-1.5e3}" ∧
    Set Sample.doc.render part' [str "o"] = Set Sample.doc.render (str "[0]") Sample.toTrue := by
  obtain ⟨part, part', h1, h2, h3⟩ := C82_set_compose Sample.doc [str "o"] [str "p", str "q"] _ (str "[0]") Sample.doc_wf
    (by decide) (by decide) Sample.get_true
  have e : Get Sample.doc.render [str "o"] = .ok (str "{ \"p\":{\"q\":true }, \"r\":-1.5e3}") := by decide +kernel
  rw [e] at h1
  obtain rfl := Out.ok.inj h1
  have e2 : Set (str "{ \"p\":{\"q\":true }, \"r\":-1.5e3}") (str "[0]") [str "p", str "q"] =
    .done (str "{ \"p\":{\"q\":[0] }, \"r\":-1.5e3}") none := by decide +kernel
  refine ⟨_, part', e, h2, ?_, h3⟩
  rw [e2] at h2
  injection h2 with h2
  exact h2.symm

/-! ### C83: what follows the document -/

/-- The document with more text behind it. -/
def after (d : Doc) (more : Bytes) : Doc := ⟨d.lead, d.root, d.trail ++ more⟩

theorem after_render (d : Doc) (more : Bytes) : (after d more).render = d.render ++ more := by simp [after, Doc.render]

theorem after_opens {d : Doc} (hd : d.wf) (more : Bytes) : (after d more).opens := ⟨(doc_wf.1 hd).1, (doc_wf.1 hd).2.1⟩

theorem after_get (d : Doc) (more : Bytes) (p : List Text) : (after d more).get? p = d.get? p := rfl

theorem after_set (d : Doc) (more : Bytes) (p : List Text) (x : Json) :
    ((after d more).set p x).render = (d.set p x).render ++ more := by simp [after, Doc.render, Doc.set]

/-- **C83, part**: bytes behind the document change no answer, and are kept, for every path that
resolves in the document. -/
theorem C83_after_partial (d : Doc) (more : Bytes) (p : List Text) (w : Json) (hd : d.wf) (hp : p ≠ []) (h : d.get? p = some w) :
    Get (d.render ++ more) p = Get d.render p ∧
    (∀ new, ∃ out, Set d.render new p = .done out none ∧ Set (d.render ++ more) new p = .done (out ++ more) none) ∧
    (∃ out, Delete d.render p = .done out none ∧ Delete (d.render ++ more) p = .done (out ++ more) none) ∧
    (w.kind = .arr → ∀ v : Json, ∃ out, Add d.render v.render p = .done out none ∧
      Add (d.render ++ more) v.render p = .done (out ++ more) none) := by
  have ho := after_opens hd more
  have hg : (after d more).get? p = some w := h
  refine ⟨?_, ?_, ?_, ?_⟩
  · rw [get_ok hd hp h, ← after_render, get_ok_open ho hp hg]
  · intro new
    refine ⟨_, set_ok hd hp h new, ?_⟩
    rw [← after_render, set_ok_open ho hp hg new, after_set]
  · obtain ⟨p0, q, rfl⟩ : ∃ p0 q, p = p0 ++ [q] := by
      rcases List.eq_nil_or_concat p with h | ⟨a, b, h⟩
      · exact absurd h hp
      · exact ⟨a, b, by simpa using h⟩
    have h' := h
    unfold Doc.get? at h'
    rw [get_append, Option.bind_eq_some_iff] at h'
    obtain ⟨u, hu, hw⟩ := h'
    rw [get_cons_eq, Option.bind_eq_some_iff] at hw
    obtain ⟨n, hn, -⟩ := hw
    obtain ⟨xs, e, ys, r1, r2, -, -, r3⟩ := delete_ok hd hu hn
    obtain ⟨xs', e', ys', s1, s2, -, -, s3⟩ := delete_ok_open ho (h := show (after d more).get? p0 = some u from hu) hn
    rw [r1] at s1
    obtain ⟨rfl, s4⟩ := List.append_inj s1 (by rw [r2, s2])
    obtain ⟨rfl, rfl⟩ := List.cons.inj s4
    exact ⟨_, r3, by rw [← after_render, s3, after_set]⟩
  · intro hk v
    cases w with
    | lit t => simp [Json.kind] at hk
    | str t => simp [Json.kind] at hk
    | obj g ms => simp [Json.kind] at hk
    | arr g es =>
      refine ⟨_, add_ok hd h v, ?_⟩
      rw [← after_render, add_ok_open ho (fun e => absurd e hp) hg v, after_set]

/-- **C83, part**: an index that is no number or is outside the array is reported alike, and so is a
key that the object lacks, if the quoted key does not occur in what follows the object. -/
theorem C83_errors_partial (d : Doc) (more : Bytes) (p : List Text) (q : Text) (qs : List Text) (hd : d.wf) :
    (∀ g es, d.get? p = some (.arr g es) → d.get? (p ++ [q]) = none →
      Get (d.render ++ more) (p ++ q :: qs) = Get d.render (p ++ q :: qs)) ∧
    (∀ g ms, d.get? p = some (.obj g ms) → (∀ m ∈ ms, m.key ≠ q) → (after d more).fresh p q →
      Get (d.render ++ more) (p ++ q :: qs) = Get d.render (p ++ q :: qs)) := by
  have ho := after_opens hd more
  have hne : ((p ++ q :: qs).length == 0) ≠ true := by simp
  rw [← after_render]
  refine ⟨fun g es h hm => ?_, fun g ms h hm hf => ?_⟩
  · obtain ⟨f, hf, hv, hseg, hwf⟩ := find_any hd h
    obtain ⟨f', hf', hv', hseg', hwf'⟩ := find_any_open ho (show (after d more).get? p = _ from h)
    unfold Get
    rw [if_neg hne, if_neg hne]
    cases hq : readInt q with
    | none => rw [core_index_expected hd hf hv hq, core_index_expected_open ho hf' hv' hq]; rfl
    | some n =>
      have hn : n < 0 ∨ (es.length : Int) ≤ n := by
        rcases Int.lt_or_le n 0 with h0 | h0
        · exact .inl h0
        · refine .inr (Int.not_lt.1 fun hlt => ?_)
          have hi : readIndex q = some n.toNat := by
            unfold readIndex; rw [hq]
            obtain ⟨k, rfl⟩ := Int.eq_ofNat_of_zero_le h0
            rfl
          unfold Doc.get? at h hm
          rw [get_append, h, Option.bind_some, get_cons_eq, slot_arr rfl, hi] at hm
          have : n.toNat < (Json.arr g es).entries.length := by simp [Json.entries]; omega
          simp [Option.filter, this, Json.get?] at hm
      rw [core_index_range hd hf hv (hv ▸ hseg) (hv ▸ hwf) hq hn,
        core_index_range_open ho hf' hv' (hv' ▸ hseg') (hv' ▸ hwf') hq hn]
      rfl
  · have hfr : d.fresh p q := by
      obtain ⟨h1, h2, w, a, b, h3, h4, h5, h6⟩ := hf
      obtain ⟨f, A, B, -, -, -, e1, e2, -⟩ := doc_around hd h
      obtain ⟨rfl, rfl⟩ : A = a ∧ B ++ more = b := by
        refine around fun v => ?_
        rw [← h4 v, after_set]
        have : (d.set p v).render = A ++ (v.render ++ B) := e2 (fun _ => v)
        rw [this]; simp
      refine ⟨h1, fun h => h2 (h.trans ?_), w, A, B, h3, fun v => e2 (fun _ => v), h5, fun h => h6 (h.trans ?_)⟩
      · rw [after_render]; exact List.prefix_append _ _
      · rw [← List.append_assoc]; exact (List.prefix_append _ _).isInfix
    unfold Get
    rw [if_neg hne, if_neg hne, core_fresh hd h (memberIdx_absent hm) hfr, core_fresh_open ho h (memberIdx_absent hm) hf]
    rfl

/-- The sample document with an opened object behind it. -/
example : Get (Sample.doc.render ++ str "{\"a\":") Sample.toStr = .ok (str "x]\\\\") ∧
    (∃ out, Delete Sample.doc.render Sample.toStr = .done out none ∧
      Delete (Sample.doc.render ++ str "{\"a\":") Sample.toStr = .done (out ++ str "{\"a\":") none) ∧
    Get (Sample.doc.render ++ str "[1,2,3,4,5]") (Sample.toArr ++ [str "4"]) = .err .indexOutOfRange ∧
    (after Sample.doc (str "{\"a\":")).fresh [] (str "new") := by
  have h := C83_after_partial Sample.doc (str "{\"a\":") Sample.toStr _ Sample.doc_wf (by decide) Sample.get_str
  refine ⟨h.1.trans (by decide +kernel), h.2.2.1, ?_, ?_⟩
  · rw [(C83_errors_partial Sample.doc (str "[1,2,3,4,5]") Sample.toArr (str "4") [] Sample.doc_wf).1 _ _ Sample.get_arr (by decide +kernel)]
    decide +kernel
  · exact fresh_of_text (by decide +kernel) (by decide +kernel) Sample.get_root (by decide) (by decide +kernel)

/-- **C83 fails** for a missing key: it is found in the text behind the document. -/
theorem C83_fails : Get (str "{\"a\":1}") [str "b"] = .err (.keyNotFound (str "b")) ∧
    Get (str "{\"a\":1}\n{\"b\":2}") [str "b"] = .ok (str "2") ∧
    Get (str "{}\n{\"b\":2}") [str "b"] = .ok (str "2") := by
  refine ⟨?_, ?_, ?_⟩ <;> decide +kernel

/-! ### C84: Length follows the mutations -/

theorem container_of_kind {w : Json} (h : w.kind = .arr ∨ w.kind = .obj) : w.isContainer := by
  cases w <;> simp_all [Json.kind, Json.isContainer]

theorem kind_of_container {w : Json} (h : w.isContainer) : w.kind = .arr ∨ w.kind = .obj := by
  cases w <;> simp_all [Json.kind, Json.isContainer]

theorem length_set {d : Doc} {p : List Text} {w w' : Json} {k : Nat} (hp : p ≠ []) (h : d.get? p = some w) (hd' : (d.set p w').wf)
    (hc : w'.isContainer) (he : w'.entries.length = k) : Length (d.set p w').render p = .ok k := by
  rw [C36_length_path_partial hd' (get_upd p h fun _ => w') hc hp, size_entries, he]

theorem size_upd (w : Json) (f : Json → Json) (q : Text) (qs : List Text) : (w.upd f (q :: qs)).size = w.size ∧
    (w.upd f (q :: qs)).kind = w.kind := by
  rw [Json.upd]
  cases w with
  | lit t => exact ⟨rfl, rfl⟩
  | str t => exact ⟨rfl, rfl⟩
  | arr g es => simp only [Json.updChild]; split <;> simp [Json.size, Json.kind]
  | obj g ms => simp only [Json.updChild]; split <;> simp [Json.size, Json.kind]

/-- **C84, part**: each successful mutation changes `Length` of the container at a non-empty path
by what it should. -/
theorem C84_length_partial (d : Doc) (p : List Text) (w : Json) (hd : d.wf) (hp : p ≠ []) (h : d.get? p = some w) (hc : w.isContainer) :
    Length d.render p = .ok w.size ∧
    (∀ (v : Json) json, v.wf → w.kind = .arr → Add d.render v.render p = .done json none → Length json p = .ok (w.size + 1)) ∧
    (∀ (v : Json) k json, v.wf → strOk k → w.kind = .obj → (∀ e ∈ w.entries, e.key ≠ some k) →
      AddKeyValue d.render k (some v.render) p = .done json none → Length json p = .ok (w.size + 1)) ∧
    (∀ (v : Json) (n : Nat) json, v.wf → w.kind = .arr → n < w.size → (n + 1 < w.size ∨ n = 0) → (n : Int) ≤ 9223372036854775807 →
      Insert d.render n v.render p = .done json none → Length json p = .ok (w.size + 1)) ∧
    (∀ q c json, d.get? (p ++ [q]) = some c → Delete d.render (p ++ [q]) = .done json none → Length json p = .ok (w.size - 1)) ∧
    (∀ (v : Json) q qs c json, v.wf → d.get? (p ++ q :: qs) = some c → Set d.render v.render (p ++ q :: qs) = .done json none →
      Length json p = .ok w.size) ∧
    (∀ q new json, w.kind = .obj → (∀ e ∈ w.entries, e.key ≠ some new) → strOk new → (∃ c, d.get? (p ++ [q]) = some c) →
      SetKey d.render new (p ++ [q]) = .done json none → Length json p = .ok w.size) := by
  refine ⟨C36_length_path_partial hd h hc hp, ?_, ?_, ?_, ?_, ?_, ?_⟩
  · intro v json hv hk ha
    cases w with
    | arr g es =>
      obtain ⟨w', h1, h2, h3, h4, -⟩ := C20_add d p g es v hd h hv
      rw [h1] at ha
      injection ha with ha
      exact ha ▸ length_set hp h h2 (container_of_kind (.inl h3)) (by rw [h4, size_entries]; simp)
    | _ => simp [Json.kind] at hk
  · intro v k json hv hks hk hne ha
    cases w with
    | obj g ms =>
      have hkey : ∀ m ∈ ms, m.key ≠ k := by
        intro m hm he
        exact hne (.member m.key m.m m.l2 m.v) (by simp only [Json.entries, List.mem_map]; exact ⟨m, hm, rfl⟩) (by simp [Entry.key, he])
      rcases C21_all_or_nothing_partial d p g ms k v hd h hkey hks hv _ _ ha with ⟨h0, -⟩ | ⟨-, w', h1, h2, h3, h4, -⟩
      · exact absurd rfl h0
      · exact h1 ▸ length_set hp h h2 (container_of_kind (.inr h3)) (by rw [h4, size_entries]; simp)
    | _ => simp [Json.kind] at hk
  · intro v n json hv hk hn hok hb ha
    cases w with
    | arr g es =>
      simp only [Json.size] at hn hok
      obtain ⟨w', h1, h2, h3, h4, -⟩ := C23_insert_partial d p g es n v hd h hn hb hv (hok.imp id .inl)
      rw [h1] at ha
      injection ha with ha
      refine ha ▸ length_set hp h h2 (container_of_kind (.inl h3)) ?_
      rw [h4, size_entries]
      have : n < (Json.arr g es).entries.length := by simp [Json.entries]; omega
      simp; omega
    | _ => simp [Json.kind] at hk
  · intro q c json hq ha
    obtain ⟨n, w', h0, -, h1, h2, h3, h4⟩ := C16_delete_exact d p q w c hd h hq
    rw [h1] at ha
    injection ha with ha
    refine ha ▸ length_set hp h h2 (container_of_kind (by rw [h3]; exact kind_of_container hc)) ?_
    rw [h4, size_entries, List.length_eraseIdx, if_pos (slot_lt h0)]
  · intro v q qs c json hv hq ha
    rw [set_ok hd (by simp) hq] at ha
    injection ha with ha
    have hd' : (d.set (p ++ q :: qs) v).wf := doc_upd_wf (f := fun _ => v) hd hq hv
    have e : d.set (p ++ q :: qs) (.lit v.render) = d.set p (w.upd (fun _ => .lit v.render) (q :: qs)) := by
      simp only [Doc.set, Json.set, upd_append]
      congr 1
      exact upd_congr p h rfl
    have e' : d.set (p ++ q :: qs) v = d.set p (w.upd (fun _ => v) (q :: qs)) := by
      simp only [Doc.set, Json.set, upd_append]
      congr 1
      exact upd_congr p h rfl
    have : json = (d.set (p ++ q :: qs) v).render := by
      rw [← ha]; exact set_render_eq hq (render_lit _)
    rw [this, e']
    obtain ⟨s1, s2⟩ := size_upd w (fun _ => v) q qs
    exact length_set hp h (e' ▸ hd') (container_of_kind (by rw [s2]; exact kind_of_container hc)) (by rw [← size_entries, s1])
  · intro q new json hk hne hns ⟨c, hq⟩ ha
    cases w with
    | obj g ms =>
      have hkey : ∀ m ∈ ms, m.key ≠ new := by
        intro m hm he
        exact hne (.member m.key m.m m.l2 m.v) (by simp only [Json.entries, List.mem_map]; exact ⟨m, hm, rfl⟩) (by simp [Entry.key, he])
      unfold Doc.get? at hq h
      rw [get_append, h, Option.bind_some, get_cons_eq, Option.bind_eq_some_iff] at hq
      obtain ⟨n, hn, -⟩ := hq
      rcases C24_all_or_nothing_partial d p q new g ms n hd h hn hkey hns _ _ ha with ⟨h0, -⟩ | ⟨-, d', h1, rfl, h2, -⟩
      · exact absurd rfl h0
      · exact h1 ▸ length_set hp h h2 rfl (by simp [Json.entries, Json.size])
    | _ => simp [Json.kind] at hk

/-- **C84 fails** at the root: an element is added to `[]` and `Length` stays 0. -/
theorem C84_fails : Length (str "[]") [] = .ok 0 ∧ Add (str "[]") (str "5") [] = .done (str "[5]") none ∧ Length (str "[5]") [] = .ok 0 := by
  refine ⟨?_, ?_, ?_⟩ <;> decide +kernel

/-- `Length` of the sample array and object after each of the calls. -/
example : Length Sample.doc.render Sample.toArr = .ok 4 ∧
    (∀ json, Add Sample.doc.render (str "7") Sample.toArr = .done json none → Length json Sample.toArr = .ok 5) ∧
    (∀ json, AddKeyValue Sample.doc.render (str "new") (some (str "7")) Sample.toObj = .done json none → Length json Sample.toObj = .ok 3) ∧
    (∀ json, Delete Sample.doc.render Sample.toStr = .done json none → Length json Sample.toArr = .ok 3) ∧
    (∀ json, SetKey Sample.doc.render (str "new") [str "o", str "p"] = .done json none → Length json Sample.toObj = .ok 2) ∧
    Add Sample.doc.render (str "7") Sample.toArr ≠ .done Sample.doc.render none ∧
    (match AddKeyValue Sample.doc.render (str "new") (some (str "7")) Sample.toObj with | .done _ none => true | _ => false) = true ∧
    (match SetKey Sample.doc.render (str "new") [str "o", str "p"] with | .done _ none => true | _ => false) = true := by
  have a := C84_length_partial Sample.doc Sample.toArr _ Sample.doc_wf (by decide) Sample.get_arr rfl
  have o := C84_length_partial Sample.doc Sample.toObj _ Sample.doc_wf (by decide) Sample.get_obj rfl
  refine ⟨a.1, fun json h => a.2.1 (.lit (str "7")) json (by decide +kernel) rfl h,
    fun json h => o.2.2.1 (.lit (str "7")) (str "new") json (by decide +kernel) (by decide +kernel) rfl (by decide +kernel) h,
    fun json h => a.2.2.2.2.1 (str "1") _ json Sample.get_str h,
    fun json h => o.2.2.2.2.2.2 (str "p") (str "new") json rfl (by decide +kernel) (by decide +kernel)
      ⟨.obj [] [⟨[], str "q", [], [], .lit (str "true"), str " "⟩], by decide +kernel⟩ h,
    by decide +kernel, by decide +kernel, by decide +kernel⟩

/-! ### C85: Delete undoes Insert -/

/-- **C85** Deleting an element that `Insert` put into an array gives back the text, byte for byte. -/
theorem C85_insert_undone (d : Doc) (p : List Text) (g : Text) (es : List (Elem Json)) (n : Nat) (q : Text) (v : Json) (hd : d.wf)
    (h : d.get? p = some (.arr g es)) (hn : n < es.length) (hb : (n : Int) ≤ 9223372036854775807) (hv : v.wf)
    (hok : n + 1 < es.length ∨ n = 0 ∨ ∃ e, es[n]? = some e ∧ e.l = []) (hq : readIndex q = some n) :
    ∃ json, Insert d.render n v.render p = .done json none ∧ Delete json (p ++ [q]) = .done d.render none := by
  obtain ⟨xs, e, ys, h1, h2, hw, h3⟩ := insert_ok hd h hn hb hok v
  have hall := rents_all (w := .arr g es) rfl hw
  rw [h1] at hall
  have hwe := hall e (by simp)
  obtain ⟨w', hw'⟩ : ∃ w', w' = build (.arr g es) g (xs ++ (⟨e.l, .elem v, []⟩ : REnt) :: { e with l := [] } :: ys) := ⟨_, rfl⟩
  have hfit : ∀ x ∈ xs ++ (⟨e.l, .elem v, []⟩ : REnt) :: { e with l := [] } :: ys, Fits (.arr g es) x.e ∧ Ws x.l ∧ Ws x.r ∧ x.e.ok := by
    intro x hx
    simp only [List.mem_append, List.mem_cons] at hx
    rcases hx with hx | rfl | rfl | hx
    · exact hall x (by simp [hx])
    · exact ⟨by trivial, hwe.2.1, rfl, hv⟩
    · exact ⟨hwe.1, rfl, hwe.2.2.1, hwe.2.2.2⟩
    · exact hall x (by simp [hx])
  have hr : rents w' = xs ++ (⟨e.l, .elem v, []⟩ : REnt) :: { e with l := [] } :: ys := by
    rw [hw', rents_build rfl fun x hx => (hfit x hx).1]
  have hbw := build_ok (w := .arr g es) (g := g) rfl (wf_arr.1 hw).1 hfit
  rw [← hw'] at h3 hbw
  refine ⟨_, h3, ?_⟩
  have hg : (d.set p w').get? p = some w' := get_upd p h fun _ => w'
  have hd' : (d.set p w').wf := doc_upd_wf (f := fun _ => w') hd h hbw.1
  have hs : w'.slot? q = some n := by
    rw [slot_arr (by rw [hw']; rfl), hq, rents_entries, hr]
    simp; omega
  obtain ⟨xs', e', ys', k1, k2, -, -, k3⟩ := delete_ok hd' hg hs
  rw [k3]
  rw [hr] at k1
  obtain ⟨rfl, k4⟩ := List.append_inj k1 (by rw [h2, k2])
  obtain ⟨rfl, rfl⟩ := List.cons.inj k4
  have e1 : build w' (e.l ++ []) (dropEnt xs (⟨e.l, .elem v, []⟩ : REnt) ({ e with l := [] } :: ys)) =
      .arr (e.l ++ []) (rents (.arr g es) |>.map toElem) := by
    rw [h1, hw']
    simp [build, dropEnt]
  have e2 : (Json.arr (e.l ++ []) (rents (.arr g es) |>.map toElem)).render = (Json.arr g es).render := by
    have a1 := render_build (w := .arr g es) rfl (g := e.l ++ []) (xs := rents (.arr g es)) rents_fit
    have a2 := render_build (w := .arr g es) rfl (g := g) (xs := rents (.arr g es)) rents_fit
    rw [show build (.arr g es) g (rents (.arr g es)) = .arr g es from build_rents (.arr g es)] at a2
    rw [a2]
    have : (rents (.arr g es)).isEmpty = false := by rw [h1]; simp
    simp only [build, this] at a1 ⊢
    exact a1
  have hset : (d.set p w').set p (.arr (e.l ++ []) (rents (.arr g es) |>.map toElem)) =
      d.set p (.arr (e.l ++ []) (rents (.arr g es) |>.map toElem)) := by
    simp only [Doc.set, Json.set, upd_upd p h]; rfl
  have hself : d.set p (.arr g es) = d := by
    have := upd_self p h (fun _ => .arr g es) rfl
    simp only [Doc.set, Json.set, this]
  rw [e1, hset, set_render_eq h e2, hself]

/-- Both sides of `C23`'s condition. -/
example : ∃ json, Insert Sample.doc.render 1 (str "[7]") Sample.toArr = .done json none ∧ json ≠ Sample.doc.render ∧
    Delete json (Sample.toArr ++ [str "1"]) = .done Sample.doc.render none := by
  obtain ⟨json, h1, h2⟩ := C85_insert_undone Sample.doc Sample.toArr [] Sample.elems 1 (str "1") (.arr [] [Sample.el (.lit (str "7"))])
    Sample.doc_wf Sample.get_arr (by decide) (by decide) (by decide +kernel) (.inl (by decide)) (by decide +kernel)
  have e : (Json.arr [] [Sample.el (.lit (str "7"))]).render = str "[7]" := by decide +kernel
  rw [e] at h1
  refine ⟨json, h1, ?_, h2⟩
  rintro rfl
  revert h1
  decide +kernel

/-! ### C86: renaming back -/

theorem modify_left {α : Type} {xs : List α} (ys : List α) {n : Nat} (h : n < xs.length) (f : α → α) :
    (xs ++ ys).modify n f = xs.modify n f ++ ys := by
  induction xs generalizing n with
  | nil => simp at h
  | cons x xs ih =>
    cases n with
    | zero => simp
    | succ n => simp [ih (n := n) (by simpa using h)]

theorem modify_right {α : Type} (xs ys : List α) (n : Nat) (f : α → α) :
    (xs ++ ys).modify (xs.length + n) f = xs ++ ys.modify n f := by
  induction xs with
  | nil => simp
  | cons x xs ih => rw [List.length_cons, Nat.add_right_comm, List.cons_append, List.modify_succ_cons, ih]; rfl

theorem modify_mid {α : Type} (xs ys : List α) (x : α) (f : α → α) : (xs ++ x :: ys).modify xs.length f = xs ++ f x :: ys := by
  have := modify_right xs (x :: ys) 0 f
  simpa using this

theorem modify_key_back {ms : List (Member Json)} {n : Nat} {q new : Text} (h : memberIdx ms q = some n) (hnew : ∀ m ∈ ms, m.key ≠ new) :
    memberIdx (ms.modify n fun m => { m with key := new }) new = some n ∧
    (ms.modify n fun m => { m with key := new }).modify n (fun m => { m with key := q }) = ms ∧
    ((∀ m ∈ ms.eraseIdx n, m.key ≠ q) → ∀ m ∈ ms.modify n fun m => { m with key := new }, m.key ≠ q) := by
  obtain ⟨xs, m, ys, rfl, rfl, rfl, hx⟩ := memberIdx_split h
  have e : ∀ f : Member Json → Member Json, ∀ m, (xs ++ m :: ys).modify xs.length f = xs ++ f m :: ys := by
    intro f m
    exact modify_mid _ _ _ _
  rw [e, e]
  refine ⟨memberIdx_split' (m := { m with key := new }) fun x hx => hnew x (by simp [hx]), rfl, ?_⟩
  intro hu x hx'
  rw [List.eraseIdx_append_of_length_le (by simp)] at hu
  simp only [Nat.sub_self, List.eraseIdx_cons_zero] at hu
  simp only [List.mem_append, List.mem_cons] at hx' hu
  rcases hx' with hx' | rfl | hx'
  · exact hu x (.inl hx')
  · exact fun he => hnew m (by simp) he.symm
  · exact hu x (.inr hx')

/-- **C86** After a member was renamed, renaming it back either gives the original text, byte for
byte, or is refused and changes nothing. -/
theorem C86_setKey_back (d : Doc) (p : List Text) (q new : Text) (g : Text) (ms : List (Member Json)) (n : Nat) (hd : d.wf)
    (h : d.get? p = some (.obj g ms)) (hq : memberIdx ms q = some n) (huniq : ∀ m ∈ ms.eraseIdx n, m.key ≠ q)
    (hnew : ∀ m ∈ ms, m.key ≠ new) (hns : strOk new) (json json' : Bytes) (er : Option Err)
    (h1 : SetKey d.render new (p ++ [q]) = .done json none) (h2 : SetKey json q (p ++ [new]) = .done json' er) :
    (er = none ∧ json' = d.render) ∨ (er ≠ none ∧ json' = json) := by
  obtain ⟨b1, b2, b3⟩ := modify_key_back hq hnew
  have hqs : strOk q := by
    obtain ⟨xs, m, ys, e, -, hk, -⟩ := memberIdx_split hq
    have := members_strOk (wf_obj.1 (get_wf p (doc_wf.1 hd).2.1 h)).2 m (by simp [e])
    rwa [hk] at this
  rcases C24_all_or_nothing_partial d p q new g ms n hd h hq hnew hns _ _ h1 with ⟨h0, -⟩ | ⟨-, d', rfl, rfl, hd', -⟩
  · exact absurd rfl h0
  have hg : (d.set p (.obj g (ms.modify n fun m => { m with key := new }))).get? p =
      some (.obj g (ms.modify n fun m => { m with key := new })) := get_upd p h fun _ => _
  rcases C24_all_or_nothing_partial _ p new q g _ n hd' hg b1 (b3 huniq) hqs _ _ h2 with ⟨h0, e⟩ | ⟨h0, d'', rfl, rfl, -⟩
  · exact .inr ⟨h0, e⟩
  · refine .inl ⟨h0, ?_⟩
    congr 1
    rw [b2]
    have e1 : (d.set p (.obj g (ms.modify n fun m => { m with key := new }))).set p (.obj g ms) = d.set p (.obj g ms) := by
      simp only [Doc.set, Json.set, upd_upd p h]; rfl
    have e2 : d.set p (.obj g ms) = d := by
      have := upd_self p h (fun _ => .obj g ms) rfl
      simp only [Doc.set, Json.set, this]
    rw [e1, e2]

/-- Renamed and renamed back, in a document where both calls succeed. -/
example : ∃ json, SetKey Sample.doc.render (str "new") [str "o", str "p"] = .done json none ∧ json ≠ Sample.doc.render ∧
    SetKey json (str "p") [str "o", str "new"] = .done Sample.doc.render none ∧
    Sample.doc.get? [str "o"] = some (.obj [] Sample.members) ∧ memberIdx Sample.members (str "p") = some 0 ∧
    (∀ m ∈ Sample.members.eraseIdx 0, m.key ≠ str "p") ∧ (∀ m ∈ Sample.members, m.key ≠ str "new") ∧ strOk (str "new") := by
  refine ⟨str "\n{\"a\": 1, \"b\\\"]\" :[ 10 ,\"x]\\\\\" , {\"k\":null}, [] ],\"a\":2,\"o\":{ \"new\":{\"q\":true }, \"r\":-1.5e3}} ",
    ?_, ?_, ?_, ?_, ?_, ?_, ?_, ?_⟩ <;> decide +kernel

/-! ### C87: Delete and Set at another place -/

/-- A change of the value in an entry. -/
def onVal (f : Json → Json) (x : REnt) : REnt :=
  ⟨x.l, match x.e with | .elem v => .elem (f v) | .member k m l2 v => .member k m l2 (f v), x.r⟩

theorem map_modify {α β : Type} (l : List α) (n : Nat) (f : α → α) (g : β → β) (t : α → β) (h : ∀ a ∈ l, t (f a) = g (t a)) :
    (l.modify n f).map t = (l.map t).modify n g := by
  induction l generalizing n with
  | nil => simp
  | cons a l ih =>
    cases n with
    | zero => simp [h a (by simp)]
    | succ n => simp [ih n fun a ha => h a (by simp [ha])]

theorem rents_updAt (w : Json) (n : Nat) (f : Json → Json) : rents (updAt w n f) = (rents w).modify n (onVal f) := by
  cases w with
  | lit t => simp [updAt, rents]
  | str t => simp [updAt, rents]
  | arr g es => exact map_modify _ _ _ _ _ fun _ _ => rfl
  | obj g ms => exact map_modify _ _ _ _ _ fun _ _ => rfl

theorem updAt_build {w : Json} (hc : w.isContainer) {g : Text} {xs : List REnt} (h : ∀ x ∈ xs, Fits w x.e) (n : Nat) (f : Json → Json) :
    updAt (build w g xs) n f = build w g (xs.modify n (onVal f)) := by
  cases w with
  | lit t => simp [Json.isContainer] at hc
  | str t => simp [Json.isContainer] at hc
  | arr g' es =>
    simp only [build, updAt]
    congr 1
    refine (map_modify _ _ _ _ _ fun x hx => ?_).symm
    have := h x hx
    obtain ⟨l, e, r⟩ := x
    cases e <;> first | rfl | exact absurd this (by simp [Fits])
  | obj g' ms =>
    simp only [build, updAt]
    congr 1
    refine (map_modify _ _ _ _ _ fun x hx => ?_).symm
    have := h x hx
    obtain ⟨l, e, r⟩ := x
    cases e <;> first | rfl | exact absurd this (by simp [Fits])

theorem dropEnt_left {xs : List REnt} {e : REnt} {ys : List REnt} {m : Nat} (hm : m < xs.length) (f : Json → Json) :
    dropEnt (xs.modify m (onVal f)) e ys = (dropEnt xs e ys).modify m (onVal f) := by
  cases ys with
  | cons y ys => simp only [dropEnt]; rw [modify_left _ hm]
  | nil =>
    rcases List.eq_nil_or_concat xs with rfl | ⟨xs, x, rfl⟩
    · simp at hm
    · rw [List.concat_eq_append] at *
      simp only [List.length_append, List.length_cons, List.length_nil] at hm
      by_cases h : m < xs.length
      · rw [modify_left _ h]
        simp only [dropEnt, List.getLast?_concat, List.dropLast_concat]
        rw [modify_left _ h]
      · obtain rfl : m = xs.length := by omega
        rw [modify_mid]
        simp only [dropEnt, List.getLast?_concat, List.dropLast_concat]
        rw [modify_mid]
        simp [onVal]

theorem dropEnt_right {xs : List REnt} {e : REnt} {ys : List REnt} {m : Nat} (hm : m < ys.length) (f : Json → Json) :
    dropEnt xs e (ys.modify m (onVal f)) = (dropEnt xs e ys).modify (xs.length + m) (onVal f) := by
  cases ys with
  | nil => simp at hm
  | cons y ys =>
    cases m with
    | zero =>
      simp only [dropEnt, List.modify_zero_cons, Nat.add_zero, modify_mid]
      simp [onVal]
    | succ m => simp only [dropEnt, List.modify_succ_cons, modify_right]

/-- Dropping an entry and changing another. -/
theorem drop_modify {l xs ys xs2 ys2 : List REnt} {e e2 : REnt} {n m : Nat} {f : Json → Json} (h1 : l = xs ++ e :: ys)
    (h2 : l.modify m (onVal f) = xs2 ++ e2 :: ys2) (l1 : xs.length = n) (l2 : xs2.length = n) (hm : m < l.length) (hmn : m ≠ n) :
    e2 = e ∧ dropEnt xs2 e ys2 = (dropEnt xs e ys).modify (if m < n then m else m - 1) (onVal f) := by
  subst h1
  by_cases h : m < n
  · rw [if_pos h]
    rw [modify_left _ (by omega)] at h2
    obtain ⟨rfl, h3⟩ := List.append_inj h2 (by simp; omega)
    obtain ⟨rfl, rfl⟩ := List.cons.inj h3
    exact ⟨rfl, dropEnt_left (by omega) f⟩
  · rw [if_neg h]
    obtain ⟨k, rfl⟩ : ∃ k, m = xs.length + (k + 1) := ⟨m - n - 1, by omega⟩
    rw [modify_right, List.modify_succ_cons] at h2
    obtain ⟨rfl, h3⟩ := List.append_inj h2 (by omega)
    obtain ⟨rfl, rfl⟩ := List.cons.inj h3
    refine ⟨rfl, ?_⟩
    rw [dropEnt_right (by simp at hm; omega)]
    congr 1

/-- `Delete` of an entry and `Set` in another entry of the same container. -/
theorem delete_set_inside {d : Doc} {p : List Text} {q r r' : Text} {rest : List Text} {w c x : Json} {n m : Nat} (hd : d.wf)
    (h : d.get? p = some w) (hn : w.slot? q = some n) (hm : w.slot? r = some m) (hmn : m ≠ n) (hc : d.get? (p ++ r :: rest) = some c) (hx : x.wf)
    (hr' : ∀ w' : Json, w'.kind = w.kind → w'.entries = w.entries.eraseIdx n → w'.slot? r' = some (if m < n then m else m - 1)) :
    ∃ j1 j2 out, Delete d.render (p ++ [q]) = .done j1 none ∧ Set j1 x.render (p ++ r' :: rest) = .done out none ∧
      Set d.render x.render (p ++ r :: rest) = .done j2 none ∧ Delete j2 (p ++ [q]) = .done out none := by
  obtain ⟨xs, e, ys, h1, h2, hw, hcon, h3⟩ := delete_ok hd h hn
  obtain ⟨w1, hw1⟩ : ∃ w1, w1 = build w (e.l ++ e.r) (dropEnt xs e ys) := ⟨_, rfl⟩
  have hall := rents_all hcon hw
  rw [h1] at hall
  have hdall : ∀ y ∈ dropEnt xs e ys, Fits w y.e ∧ Ws y.l ∧ Ws y.r ∧ y.e.ok := by
    refine dropEnt_all (P := fun x => Fits w x.e ∧ Ws x.l ∧ Ws x.r ∧ x.e.ok) xs e ys hall ?_ ?_
    · intro a b ha hb; exact ⟨hb.1, ws_append.2 ⟨ha.2.1, hb.2.1⟩, hb.2.2⟩
    · intro a b ha hb; exact ⟨hb.1, hb.2.1, ws_append.2 ⟨hb.2.2.1, ha.2.2.1⟩, hb.2.2.2⟩
  have hok1 : w1.wf := hw1 ▸ (build_ok hcon (ws_append.2 ⟨(hall e (by simp)).2.1, (hall e (by simp)).2.2.1⟩) hdall).1
  have hent : w1.entries = w.entries.eraseIdx n := by
    rw [rents_entries, hw1, rents_build hcon (fun y hy => (hdall y hy).1), dropEnt_entries, rents_entries, h1, ← h2]
    rw [List.map_append, List.map_cons, List.eraseIdx_append_of_length_le (by simp)]
    simp
  have hkind : w1.kind = w.kind := by rw [hw1, kind_build]
  have hs1 := hr' w1 hkind hent
  rw [← hw1] at h3
  have hd1 : (d.set p w1).wf := doc_upd_wf (f := fun _ => w1) hd h hok1
  have hg1 : (d.set p w1).get? p = some w1 := get_upd p h fun _ => w1
  have hlt : m < (rents w).length := by
    have := slot_lt hm
    rwa [rents_entries, List.length_map] at this
  have hc' := hc
  unfold Doc.get? at hc'
  rw [get_append, show d.root.get? p = some w from h, Option.bind_some, get_cons_eq, hm, Option.bind_some] at hc'
  have hc1 : (d.set p w1).get? (p ++ r' :: rest) = some c := by
    show (d.root.set p w1).get? _ = _
    rw [Json.set, get_upd_append p h, get_cons_eq, hs1, Option.bind_some, hent, List.getElem?_eraseIdx, ← hc']
    by_cases hlt : m < n
    · simp [hlt]
    · rw [if_neg hlt, if_neg (by omega), Nat.sub_add_cancel (by omega)]
  have hc2 : d.get? (p ++ r :: rest) = some c := hc
  refine ⟨_, _, _, h3, set_ok hd1 (by simp) hc1 x.render, set_ok hd (by simp) hc2 x.render, ?_⟩
  rw [set_render_eq hc2 (render_lit x.render), set_render_eq hc1 (render_lit x.render)]
  have e1 : d.set (p ++ r :: rest) x = d.set p (updAt w m fun c => c.upd (fun _ => x) rest) := by
    simp only [Doc.set, Json.set, upd_append]
    congr 1
    refine upd_congr p h ?_
    show w.upd _ (r :: rest) = _
    rw [Json.upd, updChild_slot hm]
  have e2 : (d.set p w1).set (p ++ r' :: rest) x = d.set p (updAt w1 (if m < n then m else m - 1) fun c => c.upd (fun _ => x) rest) := by
    simp only [Doc.set, Json.set, upd_append]
    rw [upd_upd p h]
    congr 1
    refine upd_congr p h ?_
    show w1.upd _ (r' :: rest) = _
    rw [Json.upd, updChild_slot hs1]
  have hd2 : (d.set (p ++ r :: rest) x).wf := doc_upd_wf (f := fun _ => x) hd hc2 hx
  rw [e1] at hd2 ⊢
  rw [e2]
  obtain ⟨xs2, e', ys2, k1, k2, -, -, k3⟩ := delete_ok (q := q) (n := n) hd2 (get_upd p h fun _ => _) (by rw [slot_updAt]; exact hn)
  rw [k3]
  rw [rents_updAt] at k1
  obtain ⟨rfl, k4⟩ := drop_modify h1 k1 h2 k2 hlt hmn
  rw [k4, hw1, updAt_build hcon fun y hy => (hdall y hy).1]
  have hb : ∀ g l, build (updAt w m fun c => c.upd (fun _ => x) rest) g l = build w g l := by intro g l; cases w <;> rfl
  rw [hb]
  simp only [Doc.set, Json.set, upd_upd p h]
  rfl

theorem diverge_symm (p : List Text) : ∀ {q : List Text} {j : Json}, j.diverge p q → j.diverge q p := by
  induction p with
  | nil => intro q j h; simp [Json.diverge] at h
  | cons a p ih =>
    intro q j h
    cases q with
    | nil => simp [Json.diverge] at h
    | cons b q =>
      rw [Json.diverge] at h ⊢
      cases ha : j.slot? a with
      | none => simp [ha] at h
      | some n =>
        cases hb : j.slot? b with
        | none => simp [ha, hb] at h
        | some m =>
          simp only [ha, hb] at h ⊢
          by_cases hnm : n = m
          · subst hnm
            simp only [if_true] at h ⊢
            have e : j.child? b = j.child? a := by rw [child_slot, child_slot, ha, hb]
            rw [e]
            cases hc : j.child? a with
            | none => simp [hc] at h
            | some c => simp only [hc] at h ⊢; exact ih h
          · rw [if_neg (fun e => hnm e.symm)]; trivial

/-- **C87** `Delete` of a member of an object and `Set` in another member (or anywhere below it) give the same text in
either order. -/
theorem C87_member (d : Doc) (p : List Text) (q r : Text) (rest : List Text) (g : Text) (ms : List (Member Json)) (a c x : Json) (hd : d.wf)
    (h : d.get? p = some (.obj g ms)) (hq : d.get? (p ++ [q]) = some a) (hr : d.get? (p ++ r :: rest) = some c) (hne : r ≠ q) (hx : x.wf) :
    ∃ j1 j2 out, Delete d.render (p ++ [q]) = .done j1 none ∧ Set j1 x.render (p ++ r :: rest) = .done out none ∧
      Set d.render x.render (p ++ r :: rest) = .done j2 none ∧ Delete j2 (p ++ [q]) = .done out none := by
  have hq' := hq
  have hr' := hr
  unfold Doc.get? at hq' hr'
  rw [get_append, show d.root.get? p = _ from h, Option.bind_some, get_cons_eq, Option.bind_eq_some_iff] at hq' hr'
  obtain ⟨n, hn, -⟩ := hq'
  obtain ⟨m, hm, -⟩ := hr'
  have hkn : ∃ e, (Json.obj g ms).entries[n]? = some e ∧ e.key = some q := by
    have := hn
    rw [slot_obj rfl, List.findIdx?_eq_some_iff_getElem] at this
    obtain ⟨a1, a2, -⟩ := this
    exact ⟨_, List.getElem?_eq_getElem a1, by simpa using a2⟩
  have hm' := hm
  rw [slot_obj rfl, List.findIdx?_eq_some_iff_getElem] at hm'
  obtain ⟨b1, b2, b3⟩ := hm'
  have hmn : m ≠ n := by
    rintro rfl
    obtain ⟨e, he, hk⟩ := hkn
    rw [List.getElem?_eq_getElem b1, Option.some.injEq] at he
    rw [he, hk] at b2
    simp at b2
    exact hne b2.symm
  refine delete_set_inside (r' := r) hd h hn hm hmn hr hx ?_
  intro w' hk he
  rw [slot_obj (by rw [hk]; rfl), he, List.findIdx?_eq_some_iff_getElem]
  have hnl := slot_lt hn
  refine ⟨?_, ?_, ?_⟩
  · rw [List.length_eraseIdx, if_pos hnl]; split <;> omega
  · rw [List.getElem_eraseIdx]
    by_cases hlt : m < n
    · simp only [hlt, if_true, dif_pos]; exact b2
    · have h1 : ¬ m - 1 < n := by omega
      have h2 : m - 1 + 1 = m := by omega
      simp only [hlt, if_false, h1, dif_neg, not_false_eq_true, h2]
      exact b2
  · intro j hj
    rw [List.getElem_eraseIdx]
    split
    · exact b3 j (by split at hj <;> omega)
    · refine b3 (j + 1) ?_
      split at hj <;> omega

/-- **C87** for arrays: the elements behind the deleted one have moved by one. -/
theorem C87_element (d : Doc) (p : List Text) (q r r' : Text) (rest : List Text) (g : Text) (es : List (Elem Json)) (n m : Nat) (c x : Json) (hd : d.wf)
    (h : d.get? p = some (.arr g es)) (hq : readIndex q = some n) (hn : n < es.length) (hr : readIndex r = some m) (hmn : m ≠ n)
    (hr' : readIndex r' = some (if m < n then m else m - 1)) (hc : d.get? (p ++ r :: rest) = some c) (hx : x.wf) :
    ∃ j1 j2 out, Delete d.render (p ++ [q]) = .done j1 none ∧ Set j1 x.render (p ++ r' :: rest) = .done out none ∧
      Set d.render x.render (p ++ r :: rest) = .done j2 none ∧ Delete j2 (p ++ [q]) = .done out none := by
  have hc' := hc
  unfold Doc.get? at hc'
  rw [get_append, show d.root.get? p = _ from h, Option.bind_some, get_cons_eq, Option.bind_eq_some_iff] at hc'
  obtain ⟨m', hm, -⟩ := hc'
  have hm2 := hm
  rw [slot_arr rfl, hr, Option.filter_eq_some_iff, Option.some.injEq] at hm2
  obtain ⟨rfl, hml⟩ := hm2
  have hml : m < es.length := by simpa [Json.entries] using hml
  refine delete_set_inside (r' := r') hd h (by simp [Json.slot?, hq, hn]) hm hmn hc hx ?_
  intro w' hk he
  rw [slot_arr (by rw [hk]; rfl), hr', he, List.length_eraseIdx]
  have : (Json.arr g es).entries.length = es.length := by simp [Json.entries]
  rw [this, if_pos hn, Option.filter_some, if_pos]
  simp only [decide_eq_true_eq]
  split <;> omega

/-- **C87** for a place outside the container. -/
theorem C87_elsewhere (d : Doc) (p : List Text) (q : Text) (s : List Text) (a c x : Json) (hd : d.wf)
    (hq : d.get? (p ++ [q]) = some a) (hs : d.get? s = some c) (hdv : d.diverge p s) (hx : x.wf) :
    ∃ j1 j2 out, Delete d.render (p ++ [q]) = .done j1 none ∧ Set j1 x.render s = .done out none ∧
      Set d.render x.render s = .done j2 none ∧ Delete j2 (p ++ [q]) = .done out none := by
  have hq' := hq
  unfold Doc.get? at hq'
  rw [get_append, Option.bind_eq_some_iff] at hq'
  obtain ⟨w, h, hq'⟩ := hq'
  rw [get_cons_eq, Option.bind_eq_some_iff] at hq'
  obtain ⟨n, hn, -⟩ := hq'
  have hne : s ≠ [] := by rintro rfl; cases p <;> simp [Doc.diverge, Json.diverge] at hdv
  obtain ⟨xs, e, ys, r1, r2, hw, hcon, h1⟩ := delete_ok hd h hn
  have hall := rents_all hcon hw
  rw [r1] at hall
  have hwe := hall e (by simp)
  have hb := build_ok (xs := dropEnt xs e ys) hcon (ws_append.2 ⟨hwe.2.1, hwe.2.2.1⟩)
    (dropEnt_all (P := fun x => Fits w x.e ∧ Ws x.l ∧ Ws x.r ∧ x.e.ok) xs e ys hall
      (fun a b ha hb => ⟨hb.1, ws_append.2 ⟨ha.2.1, hb.2.1⟩, hb.2.2⟩)
      (fun a b ha hb => ⟨hb.1, hb.2.1, ws_append.2 ⟨hb.2.2.1, ha.2.2.1⟩, hb.2.2.2⟩))
  obtain ⟨w', hw'⟩ : ∃ w', w' = build w (e.l ++ e.r) (dropEnt xs e ys) := ⟨_, rfl⟩
  rw [← hw'] at hb h1
  have hd1 : (d.set p w').wf := doc_upd_wf (f := fun _ => w') hd h hb.1
  have hs1 : (d.set p w').get? s = some c := by
    rw [← hs]; exact get_upd_diverge p hdv _
  have hd2 : (d.set s x).wf := doc_upd_wf (f := fun _ => x) hd hs hx
  have hg2 : (d.set s x).get? p = some w := by
    rw [← show d.get? p = some w from h]; exact get_upd_diverge s (diverge_symm p hdv) _
  refine ⟨_, _, _, h1, set_ok hd1 hne hs1 x.render, set_ok hd hne hs x.render, ?_⟩
  rw [set_render_eq hs (render_lit x.render), set_render_eq hs1 (render_lit x.render)]
  obtain ⟨xs', e', ys', k1, k2, -, -, k3⟩ := delete_ok hd2 hg2 hn
  rw [r1] at k1
  obtain ⟨rfl, k4⟩ := List.append_inj k1 (by rw [r2, k2])
  obtain ⟨rfl, rfl⟩ := List.cons.inj k4
  rw [k3, ← hw']
  congr 2
  simp only [Doc.set, Json.set]
  congr 1
  exact (upd_comm p hdv (fun _ => w') (fun _ => x)).symm

/-- Both orders, with the text in between and the result. -/
example : (∃ j1 j2 out, Delete Sample.doc.render [str "o", str "p"] = .done j1 none ∧ Set j1 (str "0") [str "o", str "r"] = .done out none ∧
      Set Sample.doc.render (str "0") [str "o", str "r"] = .done j2 none ∧ Delete j2 [str "o", str "p"] = .done out none) ∧
    (∃ j1 j2 out, Delete Sample.doc.render (Sample.toArr ++ [str "0"]) = .done j1 none ∧
      Set j1 (str "0") (Sample.toArr ++ [str "1", str "k"]) = .done out none ∧
      Set Sample.doc.render (str "0") (Sample.toArr ++ [str "2", str "k"]) = .done j2 none ∧
      Delete j2 (Sample.toArr ++ [str "0"]) = .done out none) ∧
    (∃ j1 j2 out, Delete Sample.doc.render [str "o", str "p"] = .done j1 none ∧ Set j1 (str "0") Sample.toTen = .done out none ∧
      Set Sample.doc.render (str "0") Sample.toTen = .done j2 none ∧ Delete j2 [str "o", str "p"] = .done out none) := by
  have e : (Json.lit (str "0")).render = str "0" := rfl
  have hx : (Json.lit (str "0")).wf := by decide +kernel
  refine ⟨?_, ?_, ?_⟩
  · exact C87_member Sample.doc [str "o"] (str "p") (str "r") [] [] Sample.members
      (.obj [] [⟨[], str "q", [], [], .lit (str "true"), str " "⟩]) (.lit (str "-1.5e3")) (.lit (str "0")) Sample.doc_wf Sample.get_obj (by decide +kernel) (by decide +kernel) (by decide +kernel) hx
  · exact C87_element Sample.doc Sample.toArr (str "0") (str "2") (str "1") [str "k"] [] Sample.elems 0 2 (.lit (str "null")) (.lit (str "0"))
      Sample.doc_wf Sample.get_arr (by decide +kernel) (by decide) (by decide +kernel) (by decide) (by decide +kernel) (by decide +kernel) hx
  · exact C87_elsewhere Sample.doc [str "o"] (str "p") Sample.toTen
      (.obj [] [⟨[], str "q", [], [], .lit (str "true"), str " "⟩]) (.lit (str "10")) (.lit (str "0")) Sample.doc_wf (by decide +kernel) Sample.get_ten
      (diverge_of (a := 3) (b := 1) (by decide +kernel) (by decide +kernel) (Or.inl (by decide))) hx

end Jin
