import Verif.Props.Commute
import Verif.Props.Builds
import Verif.Proof.Unique
/-!
# Props.Interleave — C133 for sessions
-/

namespace Jin
open Spec

mutual
theorem plain_norm : ∀ j : Json, j.norm.plain = j.plain
  | .lit _ => rfl
  | .str _ => rfl
  | .arr g es => by rw [Json.norm, Json.plain, Json.plain, plain_normElems]
  | .obj g ms => by rw [Json.norm, Json.plain, Json.plain, plain_normMembers]
theorem plain_normElems : ∀ es : List (Elem Json), plainElems (normElems es) = plainElems es
  | [] => rfl
  | ⟨l, v, r⟩ :: es => by rw [normElems, plainElems, plainElems, plain_norm, plain_normElems]
theorem plain_normMembers : ∀ ms : List (Member Json), plainMembers (normMembers ms) = plainMembers ms
  | [] => rfl
  | ⟨l, k, m, l2, v, r⟩ :: ms => by rw [normMembers, plainMembers, plainMembers, plain_norm, plain_normMembers]
end

/-- One text is the text of one value. -/
theorem plain_unique {d e : Doc} (hd : d.wf) (he : e.wf) (h : d.render = e.render) : d.root.plain = e.root.plain := by
  rw [← plain_norm d.root, (doc_unique hd he h).2.1, plain_norm]

theorem diverge_apart (p : List Text) : ∀ {q s : List Text} {j : Json}, j.diverge p q → p <+: s → q <+: s → False := by
  induction p with
  | nil => intro q s j h; simp [Json.diverge] at h
  | cons a p ih =>
    intro q s j h h1 h2
    cases q with
    | nil => simp [Json.diverge] at h
    | cons b q =>
      cases s with
      | nil => simp at h1
      | cons c s =>
        rw [List.cons_prefix_cons] at h1 h2
        obtain ⟨rfl, h1⟩ := h1
        obtain ⟨rfl, h2⟩ := h2
        rw [Json.diverge] at h
        cases hs : j.slot? b with
        | none => simp [hs] at h
        | some n =>
          simp only [hs, if_true] at h
          cases hc : j.child? b with
          | none => simp [hc] at h
          | some c => simp only [hc] at h; exact ih h h1 h2

/-- The mutation is in the value at `p`. -/
def Spec.Edit.inside (p : List Text) (o : Edit) : Bool := p.isPrefixOf o.at

theorem inside_local (p : List Text) (o : Edit) (w : Json) : ∃ w' : Json, o.args → o.inside p → ∀ d : Doc, d.wf → d.get? p = some w →
    o.applies d.root.plain → ∀ json, o.run d.render = .done json none → json = (d.set p w').render ∧ (d.set p w').wf := by
  by_cases ha : o.args
  · by_cases hi : o.inside p
    · obtain ⟨r, hr⟩ := List.isPrefixOf_iff_prefix.1 hi
      cases hy : w.get? r with
      | none =>
        refine ⟨w, fun _ _ d hd hw hv json h => ?_⟩
        obtain ⟨c, hc⟩ := applies_at hv
        obtain ⟨y, hy', -⟩ := of_get_plain hc
        unfold Doc.get? at hy' hw
        rw [← hr, get_append, hw, Option.bind_some, hy] at hy'
        cases hy'
      | some y =>
        obtain ⟨y', he⟩ := edit_local o y ha
        refine ⟨w.set r y', fun _ _ d hd hw hv json h => ?_⟩
        have hg : d.get? o.at = some y := by
          unfold Doc.get? at hw ⊢
          rw [← hr, get_append, hw, Option.bind_some, hy]
        obtain ⟨h1, h2⟩ := he d hd hg hv json h
        have e : d.set o.at y' = d.set p (w.set r y') := by
          unfold Doc.set
          simp only [Json.set]
          rw [← hr, upd_append]
          congr 1
          exact upd_congr p hw rfl
        rw [← e]
        exact ⟨h1, h2⟩
    · exact ⟨w, fun _ h => absurd h hi⟩
  · exact ⟨w, fun h => absurd h ha⟩

noncomputable def insideStep (p : List Text) (w : Json) (o : Edit) : Json := Classical.choose (inside_local p o w)

theorem insideStep_ok {p : List Text} {w : Json} {o : Edit} (ha : o.args) (hi : o.inside p) {d : Doc} (hd : d.wf) (hw : d.get? p = some w)
    (hv : o.applies d.root.plain) {json : Bytes} (h : o.run d.render = .done json none) :
    json = (d.set p (insideStep p w o)).render ∧ (d.set p (insideStep p w o)).wf :=
  Classical.choose_spec (inside_local p o w) ha hi d hd hw hv json h

/-- Where a session in two separate parts ends: what it makes of each part depends on the calls inside this part only. -/
theorem session_parts {d : Doc} {p q : List Text} (hdv : d.diverge p q) {w0 x0 : Json} (hp : d.get? p = some w0) (hq : d.get? q = some x0) :
    ∀ (l : List Edit) (w x : Json) {b : Bytes}, ((d.set p w).set q x).wf → (∀ o ∈ l, o.inside p ∨ o.inside q) →
      Does ((d.set p w).set q x).render l b → Valid ((d.set p w).set q x).root.plain (l.map fun o => (o, none)) →
      b = ((d.set p ((l.filter (Edit.inside p)).foldl (insideStep p) w)).set q ((l.filter (Edit.inside q)).foldl (insideStep q) x)).render := by
  have hcomm : ∀ w x, (d.set p w).set q x = (d.set q x).set p w := by
    intro w x
    simp only [Doc.set, Json.set]
    congr 1
    exact upd_comm p hdv _ _
  intro l
  induction l with
  | nil =>
    intro w x b _ _ h _
    cases h
    rfl
  | cons o l ih =>
    intro w x b hwf hin h hv
    cases h with
    | cons h1 h =>
      rename_i json
      obtain ⟨ha, hap, hv⟩ := valid_none.1 hv
      obtain ⟨d', hr, hd', hon⟩ : ∃ d' : Doc, json = d'.render ∧ d'.wf ∧ o.on ((d.set p w).set q x).root.plain = some d'.root.plain := by
        rcases C127_step hwf ha hap h1 with ⟨-, d', h1, h2, h3, -⟩ | ⟨h0, -⟩
        · exact ⟨d', h1, h2, h3⟩
        · exact absurd rfl h0
      have hv' := hv _ hon
      have hgq : (d.set p w).get? q = some x0 := by rw [← hq]; exact get_upd_diverge p hdv _
      have hgp : (d.set q x).get? p = some w0 := by rw [← hp]; exact get_upd_diverge q (diverge_comm p hdv) _
      have apart : ¬ (o.inside p = true ∧ o.inside q = true) := fun ⟨a, b⟩ =>
        diverge_apart p hdv (List.isPrefixOf_iff_prefix.1 a) (List.isPrefixOf_iff_prefix.1 b)
      by_cases hi : o.inside p = true
      · have hj : ¬ o.inside q = true := fun hj => apart ⟨hi, hj⟩
        have hg : ((d.set p w).set q x).get? p = some w := by rw [hcomm]; exact get_upd p hgp _
        obtain ⟨e1, e2⟩ := insideStep_ok ha hi hwf hg hap h1
        have e : ((d.set p w).set q x).set p (insideStep p w o) = (d.set p (insideStep p w o)).set q x := by
          rw [hcomm, hcomm, doc_set_set hgp]
        rw [e] at e1 e2
        subst e1
        rw [← plain_unique e2 hd' hr] at hv'
        rw [List.filter_cons_of_pos hi, List.filter_cons_of_neg hj, List.foldl_cons]
        exact ih _ _ e2 (fun o ho => hin o (List.mem_cons_of_mem _ ho)) h hv'
      · have hj : o.inside q = true := (hin o List.mem_cons_self).resolve_left hi
        have hg : ((d.set p w).set q x).get? q = some x := get_upd q hgq _
        obtain ⟨e1, e2⟩ := insideStep_ok ha hj hwf hg hap h1
        rw [doc_set_set hgq] at e1 e2
        subst e1
        rw [← plain_unique e2 hd' hr] at hv'
        rw [List.filter_cons_of_neg hi, List.filter_cons_of_pos hj, List.foldl_cons]
        exact ih _ _ e2 (fun o ho => hin o (List.mem_cons_of_mem _ ho)) h hv'

/-- **C133** Two sessions that consist of the same calls inside the value at `p`, in the same order, and the same calls inside the value at `q`, in the same
order, but interleaved differently, leave the same text, byte for byte. -/
theorem C133_sessions {d : Doc} {p q : List Text} {w x : Json} {l m : List Edit} {a b : Bytes} (hd : d.wf) (hp : d.get? p = some w) (hq : d.get? q = some x)
    (hdv : d.diverge p q) (hl : ∀ o ∈ l, o.inside p ∨ o.inside q) (hm : ∀ o ∈ m, o.inside p ∨ o.inside q)
    (h1 : l.filter (Edit.inside p) = m.filter (Edit.inside p)) (h2 : l.filter (Edit.inside q) = m.filter (Edit.inside q))
    (ha : Does d.render l a) (hva : Valid d.root.plain (l.map fun o => (o, none))) (hb : Does d.render m b)
    (hvb : Valid d.root.plain (m.map fun o => (o, none))) : a = b := by
  have e : (d.set p w).set q x = d := by
    rw [doc_set_self hp, doc_set_self hq]
  have r1 := session_parts hdv hp hq l w x (b := a) (by rw [e]; exact hd) hl (by rw [e]; exact ha) (by rw [e]; exact hva)
  have r2 := session_parts hdv hp hq m w x (b := b) (by rw [e]; exact hd) hm (by rw [e]; exact hb) (by rw [e]; exact hvb)
  rw [r1, r2, h1, h2]

/-- A case: three calls, two of them inside the array and one inside the object, in two orders. -/
def Sample.calls : List Edit :=
  [.add Sample.toArr (.lit (str "7")), .delete [str "o"] (str "p"), .set (Sample.toArr ++ [str "0"]) (.str (str "x"))]
def Sample.calls' : List Edit :=
  [.add Sample.toArr (.lit (str "7")), .set (Sample.toArr ++ [str "0"]) (.str (str "x")), .delete [str "o"] (str "p")]

example : Valid Sample.doc.root.plain (Sample.calls.map fun o => (o, none)) ∧ Valid Sample.doc.root.plain (Sample.calls'.map fun o => (o, none)) ∧
    Sample.calls.filter (Edit.inside Sample.toArr) = Sample.calls'.filter (Edit.inside Sample.toArr) ∧
    Sample.calls.filter (Edit.inside [str "o"]) = Sample.calls'.filter (Edit.inside [str "o"]) ∧
    (∀ o ∈ Sample.calls, o.inside Sample.toArr ∨ o.inside [str "o"]) ∧ (∀ o ∈ Sample.calls', o.inside Sample.toArr ∨ o.inside [str "o"]) ∧
    Sample.doc.diverge Sample.toArr [str "o"] := by
  have h1 : Edit.inside Sample.toArr (.add Sample.toArr (.lit (str "7"))) = true ∧ Edit.inside Sample.toArr (.delete [str "o"] (str "p")) = false ∧
      Edit.inside Sample.toArr (.set (Sample.toArr ++ [str "0"]) (.str (str "x"))) = true := by decide +kernel
  have h2 : Edit.inside [str "o"] (.add Sample.toArr (.lit (str "7"))) = false ∧ Edit.inside [str "o"] (.delete [str "o"] (str "p")) = true ∧
      Edit.inside [str "o"] (.set (Sample.toArr ++ [str "0"]) (.str (str "x"))) = false := by decide +kernel
  refine ⟨by decide +kernel, by decide +kernel, by simp [Sample.calls, Sample.calls', h1],
    by simp [Sample.calls, Sample.calls', h2], ?_, ?_, diverge_of (a := 1) (b := 3) (by decide +kernel) (by decide +kernel) (.inl (by decide))⟩
  · intro o ho
    simp only [Sample.calls, List.mem_cons, List.not_mem_nil, or_false] at ho
    rcases ho with rfl | rfl | rfl <;> decide +kernel
  · intro o ho
    simp only [Sample.calls', List.mem_cons, List.not_mem_nil, or_false] at ho
    rcases ho with rfl | rfl | rfl <;> decide +kernel

end Jin
