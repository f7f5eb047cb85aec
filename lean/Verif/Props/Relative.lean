import Verif.Props.Interleave
/-!
# Props.Relative — C134: a part of a document is changed as a document of its own
-/

namespace Jin
open Spec

theorem under_at (s : List Text) (o : Edit) : (o.under s).at = s ++ o.at := by cases o <;> rfl

theorem under_args {s : List Text} {o : Edit} : (o.under s).args = o.args := by cases o <;> rfl

theorem under_looks {s : List Text} {o : Edit} : (o.under s).looks = o.looks := by cases o <;> rfl

theorem plain_get_join (s : List Text) : ∀ (t : Plain) (p : List Text), t.get? (s ++ p) = (t.get? s).bind fun c => c.get? p := by
  induction s with
  | nil => intro t p; rfl
  | cons k s ih =>
    intro t p
    rw [List.cons_append, Plain.get?, Plain.get?]
    cases t.child? k with
    | none => rfl
    | some c => exact ih c p

theorem applies_under {s : List Text} {o : Edit} {t u : Plain} (h : t.get? s = some u) (ha : o.applies u) : (o.under s).applies t := by
  cases o <;> simp only [Edit.under, Edit.applies, List.append_assoc, plain_get_join, h, Option.bind_some] at ha ⊢ <;>
    first
      | exact ha
      | (simp only [Bool.and_eq_true, Bool.not_eq_true', List.isEmpty_eq_false_iff] at ha ⊢
         exact ⟨fun e => ha.1 (List.append_eq_nil_iff.1 e).2, ha.2⟩)

theorem kind_plain {a b : Json} (h : a.plain = b.plain) : a.kind = b.kind := by
  cases a <;> cases b <;> first | rfl | (simp [Json.plain] at h; done)

theorem relative_step {d : Doc} {p : List Text} {w : Json} {o : Edit} (hd : d.wf) (hw : d.get? p = some w) (ho : o.args) (hv : o.applies w.plain)
    {part json : Bytes} (h1 : o.run w.render = .done part none) (h2 : (o.under p).run d.render = .done json none) :
    ∃ w' : Json, w'.wf ∧ part = w'.render ∧ json = (d.set p w').render ∧ (d.set p w').wf ∧ o.on w.plain = some w'.plain ∧
      w'.kind = w.kind := by
  have hs := sub_doc hd hw
  obtain ⟨c, hc⟩ := applies_at hv
  obtain ⟨y, hy, -⟩ := of_get_plain (d := ⟨[], w, []⟩) hc
  obtain ⟨y', he⟩ := edit_under o y ho
  rw [← sub_render w] at h1
  obtain ⟨rfl, k2⟩ := he [] ⟨[], w, []⟩ hs hy (by rw [under_nil]; exact hv) _ (by rw [under_nil]; exact h1)
  have hg : d.get? (p ++ o.at) = some y := by
    unfold Doc.get? at hw hy ⊢
    rw [get_append, hw]
    exact hy
  obtain ⟨rfl, k4⟩ := he p d hd hg (applies_under (by rw [get_plain]; exact congrArg (Option.map Json.plain) hw) hv) _ h2
  have e : d.set (p ++ o.at) y' = d.set p (w.set o.at y') := by
    unfold Doc.set
    simp only [Json.set]
    rw [upd_append]
    congr 1
    exact upd_congr p hw rfl
  refine ⟨w.set o.at y', (doc_wf.1 k2).2.1, sub_render _, by rw [e], by rw [← e]; exact k4, ?_⟩
  rcases C127_step hs ho hv h1 with ⟨-, d', r1, r2, r3, -, r5⟩ | ⟨h0, -⟩
  · have hpl := plain_unique r2 k2 r1.symm
    rw [r3]
    exact ⟨congrArg some hpl, (kind_plain hpl).symm.trans r5⟩
  · exact absurd rfl h0

theorem relative_session : ∀ {l : List Edit} {d : Doc} {p : List Text} {w : Json} {part json : Bytes}, d.wf → d.get? p = some w →
    Valid w.plain (l.map fun o => (o, none)) → Does w.render l part → Does d.render (l.map (Edit.under p)) json →
    ∃ w' : Json, part = w'.render ∧ json = (d.set p w').render ∧ w'.wf ∧ (d.set p w').wf ∧ w'.kind = w.kind := by
  intro l
  induction l with
  | nil =>
    intro d p w part json hd hw _ h1 h2
    cases h1
    cases h2
    exact ⟨w, rfl, by rw [doc_set_self hw], get_wf p (doc_wf.1 hd).2.1 hw, by rw [doc_set_self hw]; exact hd, rfl⟩
  | cons o l ih =>
    intro d p w part json hd hw hv h1 h2
    cases h1 with
    | cons a1 h1 =>
      cases h2 with
      | cons a2 h2 =>
        obtain ⟨ho, hap, hv⟩ := valid_none.1 hv
        obtain ⟨w1, -, rfl, rfl, k4, k5, k6⟩ := relative_step hd hw ho hap a1 a2
        obtain ⟨w', r1, r2, r3, r4, r5⟩ := ih k4 (get_upd p hw _) (hv _ k5) h1 h2
        rw [doc_set_set hw] at r2 r4
        exact ⟨w', r1, r2, r3, r4, r5.trans k6⟩

/-- **C134** To run calls on the value at `p` of a document with paths below `p` is the same as to take out the value, run the calls on it with the rest of
the paths, and put it back, if no call reports an error. -/
theorem C134_part {d : Doc} {p : List Text} {w : Json} {l : List Edit} {part part' json : Bytes} (hd : d.wf) (hp : p ≠ []) (hw : d.get? p = some w)
    (hc : w.isContainer) (hv : Valid w.plain (l.map fun o => (o, none))) (h0 : Get d.render p = .ok part) (h1 : Does part l part')
    (h2 : Does d.render (l.map (Edit.under p)) json) : Set d.render part' p = .done json none ∧ Get json p = .ok part' := by
  rw [get_ok hd hp hw] at h0
  have e : ∀ {x : Json}, x.isContainer → x.content = x.render := fun {x} h => by cases x <;> first | rfl | cases h
  cases h0
  rw [e hc] at h1
  obtain ⟨w', rfl, rfl, r3, r4, r5⟩ := relative_session hd hw hv h1 h2
  obtain ⟨s1, s2, s3, s4⟩ := C08_get_after_set d p w w' hd hp hw r3
  refine ⟨s1, ?_⟩
  rw [s4, e (container_of_kind (r5 ▸ kind_of_container hc))]

/-- **C134** Calls of `Set`, `Delete`, `Add` and `Insert` that apply report no error, neither on the document nor on the part. -/
theorem C134_runs : ∀ {l : List Edit} {d : Doc} {p : List Text} {w : Json}, d.wf → d.get? p = some w → Valid w.plain (l.map fun o => (o, none)) →
    (∀ o ∈ l, o.looks = false) → ∃ part json, Does w.render l part ∧ Does d.render (l.map (Edit.under p)) json := by
  intro l
  induction l with
  | nil => intro d p w _ _ _ _; exact ⟨_, _, .nil, .nil⟩
  | cons o l ih =>
    intro d p w hd hw hv hl
    obtain ⟨ho, hap, hv⟩ := valid_none.1 hv
    have hlo := hl o List.mem_cons_self
    obtain ⟨a, h1⟩ := C127_runs (sub_doc hd hw) ho hap hlo
    rw [sub_render] at h1
    obtain ⟨b, h2⟩ := C127_runs (o := o.under p) hd (by rw [under_args]; exact ho)
      (applies_under (by rw [get_plain]; exact congrArg (Option.map Json.plain) hw) hap) (by rw [under_looks]; exact hlo)
    obtain ⟨w1, -, rfl, rfl, k4, k5, -⟩ := relative_step hd hw ho hap h1 h2
    obtain ⟨part, json, r1, r2⟩ := ih k4 (get_upd p hw _) (hv _ k5) (fun o ho => hl o (List.mem_cons_of_mem _ ho))
    exact ⟨part, json, .cons h1 r1, .cons h2 r2⟩

/-- `AddKeyValue` may be refused in the document and not on the part: of `z` to `a` of `{"a":{"x":1},"b":{"y":2,"z":4}}`. -/
theorem C134_refused : ∃ d : Doc, ∃ p : List Text, ∃ w : Json, ∃ o : Edit, d.wf ∧ d.get? p = some w ∧ o.args ∧ o.applies w.plain ∧
    o.run w.render = .done (str "{\"x\":1,\"z\":3}") none ∧ (o.under p).run d.render = .done d.render (some (.keyAlreadyExist (str "z"))) :=
  ⟨⟨[], .obj [] [Sample.mem [97] (.obj [] [Sample.mem (str "x") (.lit (str "1"))]),
      Sample.mem (str "b") (.obj [] [Sample.mem (str "y") (.lit (str "2")), Sample.mem (str "z") (.lit (str "4"))])], []⟩, [[97]],
    .obj [] [Sample.mem (str "x") (.lit (str "1"))], .addKeyValue [] (str "z") (.lit (str "3")), by decide +kernel, by rfl, by decide +kernel, by decide +kernel,
    by decide +kernel, by decide +kernel⟩

/-- What calls inside the value at `p` make of the document: it has another value at `p`. -/
theorem inside_session : ∀ {l : List Edit} {d : Doc} {p : List Text} {w : Json} {json : Bytes}, d.wf → d.get? p = some w → (∀ o ∈ l, o.inside p) →
    Valid d.root.plain (l.map fun o => (o, none)) → Does d.render l json → ∃ w' : Json, json = (d.set p w').render ∧ (d.set p w').wf := by
  intro l
  induction l with
  | nil =>
    intro d p w json hd hw _ _ h
    cases h
    exact ⟨w, by rw [doc_set_self hw], by rw [doc_set_self hw]; exact hd⟩
  | cons o l ih =>
    intro d p w json hd hw hi hv h
    cases h with
    | cons a h =>
      obtain ⟨ho, hap, hv⟩ := valid_none.1 hv
      obtain ⟨k1, k2⟩ := insideStep_ok ho (hi o List.mem_cons_self) hd hw hap a
      rcases C127_step hd ho hap a with ⟨-, d', r1, r2, r3, -⟩ | ⟨h0, -⟩
      · have hpl := plain_unique r2 k2 (r1.symm.trans k1)
        subst k1
        obtain ⟨w', s1, s2⟩ := ih k2 (get_upd p hw _) (fun o ho => hi o (List.mem_cons_of_mem _ ho)) (hv _ (by rw [r3, hpl])) h
        rw [doc_set_set hw] at s1 s2
        exact ⟨w', s1, s2⟩
      · exact absurd rfl h0

/-- **C135** `Set` of a value leaves nothing of what calls inside the value did before. -/
theorem C135_set {d : Doc} {p : List Text} {w : Json} {l : List Edit} {json : Bytes} (hd : d.wf) (hp : p ≠ []) (hw : d.get? p = some w)
    (hi : ∀ o ∈ l, o.inside p) (hv : Valid d.root.plain (l.map fun o => (o, none))) (h : Does d.render l json) (new : Bytes) :
    Set json new p = Set d.render new p := by
  obtain ⟨w', rfl, h2⟩ := inside_session hd hw hi hv h
  rw [set_ok h2 hp (get_upd p hw _), set_ok hd hp hw, doc_set_set hw]

/-- **C135** `Delete` of a value leaves nothing of what calls inside the value did before. -/
theorem C135_delete {d : Doc} {p : List Text} {w : Json} {l : List Edit} {json : Bytes} (hd : d.wf) (hp : p ≠ []) (hw : d.get? p = some w)
    (hi : ∀ o ∈ l, o.inside p) (hv : Valid d.root.plain (l.map fun o => (o, none))) (h : Does d.render l json) :
    Delete json p = Delete d.render p := by
  obtain ⟨w', rfl, h2⟩ := inside_session hd hw hi hv h
  obtain ⟨s, q, rfl⟩ : ∃ s q, p = s ++ [q] := ⟨_, _, (List.dropLast_concat_getLast hp).symm⟩
  have hg := hw
  unfold Doc.get? at hg
  rw [get_append, Option.bind_eq_some_iff] at hg
  obtain ⟨c, hc, hg⟩ := hg
  rw [get_cons_eq, Option.bind_eq_some_iff] at hg
  obtain ⟨n, hn, -⟩ := hg
  obtain ⟨xs, e, ys, k1, k2, k3, k4, k5⟩ := delete_ok hd hc hn
  rw [k5]
  have es : d.set (s ++ [q]) w' = d.set s (updAt c n fun _ => w') := by
    simp only [Doc.set, Json.set, upd_append]
    congr 1
    refine upd_congr s hc ?_
    show c.upd _ [q] = _
    rw [Json.upd, updChild_slot hn]
    rfl
  rw [es] at h2 ⊢
  obtain ⟨xs2, e2, ys2, l1, l2, -, -, l5⟩ := delete_ok (q := q) (n := n) h2 (get_upd s hc fun _ => _) (by rw [slot_updAt]; exact hn)
  rw [l5]
  rw [rents_updAt, k1, ← k2, modify_mid] at l1
  obtain ⟨rfl, l4⟩ := List.append_inj l1 (k2.trans l2.symm)
  obtain ⟨rfl, rfl⟩ := List.cons.inj l4
  have hb : ∀ g l, build (updAt c n fun _ => w') g l = build c g l := by intro g l; cases c <;> rfl
  rw [hb, doc_set_set hc]
  congr 3

/-- A case: calls on the array of the sample, taken out or in place. -/
def Sample.inArr : List Edit := [.set [str "0"] (.str (str "x")), .add [] (.lit (str "7")), .delete [] (str "1")]

theorem Sample.inArr_valid {w : Json} (hw : Sample.doc.get? Sample.toArr = some w) : Valid w.plain (Sample.inArr.map fun o => (o, none)) := by
  have h : (Sample.doc.root.plain.get? Sample.toArr).all fun t => Valid t (Sample.inArr.map fun o => (o, none)) := by decide +kernel
  rw [get_plain, show Sample.doc.root.get? Sample.toArr = some w from hw] at h
  exact h

example : ∃ w part part' json, Sample.doc.get? Sample.toArr = some w ∧ Get Sample.doc.render Sample.toArr = .ok part ∧ Does part Sample.inArr part' ∧
    Does Sample.doc.render (Sample.inArr.map (Edit.under Sample.toArr)) json ∧ Set Sample.doc.render part' Sample.toArr = .done json none := by
  have hk : (Sample.doc.get? Sample.toArr).any fun w => w.isContainer := by decide +kernel
  cases hw : Sample.doc.get? Sample.toArr with
  | none => rw [hw] at hk; cases hk
  | some w =>
    rw [hw] at hk
    have hc : w.isContainer := hk
    obtain ⟨part', json, h1, h2⟩ := C134_runs (l := Sample.inArr) Sample.doc_wf hw (Sample.inArr_valid hw)
      (by intro o ho; simp only [Sample.inArr, List.mem_cons, List.not_mem_nil, or_false] at ho; rcases ho with rfl | rfl | rfl <;> rfl)
    have h0 := get_ok Sample.doc_wf (path := Sample.toArr) (by decide +kernel) hw
    have e : w.content = w.render := by cases w <;> first | rfl | cases hc
    rw [e] at h0
    exact ⟨w, _, part', json, rfl, h0, h1, h2, (C134_part Sample.doc_wf (by decide +kernel) hw hc (Sample.inArr_valid hw) h0 h1 h2).1⟩

end Jin
