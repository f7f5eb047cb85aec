import Verif.Spec.Rfc
import Verif.Proof.Find

/-!
# Proof.Unique — a text has one tree
-/

namespace Jin
open Spec

/-- `t` does not begin with a byte of `P`. -/
def Stop (P : UInt8 → Bool) (t : Text) : Prop := t.head?.all (fun c => !P c) = true

theorem span_unique {P : UInt8 → Bool} : ∀ {a b t u : Text}, a.all P → b.all P → Stop P t → Stop P u → a ++ t = b ++ u → a = b ∧ t = u
  | [], [], _, _, _, _, _, _, h => ⟨rfl, h⟩
  | [], c :: b, t, u, _, hb, ht, _, h => by
    simp only [List.nil_append, List.cons_append] at h
    subst h
    simp only [List.all_cons, Bool.and_eq_true] at hb
    simp [Stop, hb.1] at ht
  | c :: a, [], t, u, ha, _, _, hu, h => by
    simp only [List.nil_append, List.cons_append] at h
    subst h
    simp only [List.all_cons, Bool.and_eq_true] at ha
    simp [Stop, ha.1] at hu
  | c :: a, d :: b, t, u, ha, hb, ht, hu, h => by
    simp only [List.cons_append, List.cons.injEq] at h
    simp only [List.all_cons, Bool.and_eq_true] at ha hb
    obtain ⟨rfl, rfl⟩ := span_unique ha.2 hb.2 ht hu h.2
    exact ⟨by rw [h.1], rfl⟩

theorem str_unique : ∀ (a : Text), strOk a → ∀ {b t u : Text}, strOk b → a ++ 34 :: t = b ++ 34 :: u → a = b ∧ t = u := by
  refine strOk_ind ?_ ?_ ?_
  · intro b t u hb h
    cases b with
    | nil => simpa using h
    | cons d b =>
      simp only [List.nil_append, List.cons_append, List.cons.injEq] at h
      rw [← h.1] at hb
      simp [strOk] at hb
  · intro x r hr ih b t u hb h
    match b with
    | [] => simp at h
    | [d] =>
      simp only [List.cons_append, List.cons.injEq] at h
      rw [← h.1] at hb
      simp [strOk] at hb
    | d :: y :: b =>
      simp only [List.cons_append, List.cons.injEq] at h
      obtain ⟨rfl, rfl, h⟩ := h
      have hb : strOk b := by simpa [strOk] using hb
      obtain ⟨rfl, rfl⟩ := ih hb h
      exact ⟨rfl, rfl⟩
  · intro c r h1 h2 hr ih b t u hb h
    cases b with
    | nil => simp only [List.cons_append, List.nil_append, List.cons.injEq] at h; exact absurd h.1 h2
    | cons d b =>
      simp only [List.cons_append, List.cons.injEq] at h
      replace h := h
      obtain ⟨rfl, h⟩ := h
      have hb : strOk b := by
        unfold strOk at hb
        split at hb
        · rename_i heq; cases heq
        · rename_i heq; cases heq; exact absurd rfl h1
        · rename_i heq; cases heq; simp only [Bool.and_eq_true] at hb; exact hb.2
      obtain ⟨rfl, rfl⟩ := ih hb h
      exact ⟨rfl, rfl⟩

/-- The first byte of a value is neither whitespace nor a closing bracket or separator. -/
theorem value_head {v : Json} (h : v.wf) : ∃ c r, v.render = c :: r ∧ isWs c = false ∧ c ≠ 93 ∧ c ≠ 125 ∧ c ≠ 44 ∧ c ≠ 58 ∧
    (match v with
      | .lit _ => tokByte c = true
      | .str _ => c = 34
      | .arr _ _ => c = 91
      | .obj _ _ => c = 123) := by
  cases v with
  | lit t =>
    simp only [Json.wf, Bool.and_eq_true] at h
    cases t with
    | nil => simp at h
    | cons c r =>
      have hc : tokByte c = true := by have := h.2; simp only [List.all_cons, Bool.and_eq_true] at this; exact this.1
      obtain ⟨h1, -, -, h4, h5, -, h7, -, h9⟩ := tokByte_ne hc
      exact ⟨c, r, by simp [Json.render], h1, h7, h9, h4, h5, hc⟩
  | str t => exact ⟨34, t ++ [34], by simp [Json.render], by simp; decide⟩
  | arr g es => exact ⟨_, _, by rw [Json.render], by simp; decide⟩
  | obj g es => exact ⟨_, _, by rw [Json.render], by simp; decide⟩

theorem value_stop {v : Json} (h : v.wf) (t : Text) : Stop isWs (v.render ++ t) := by
  obtain ⟨c, r, h1, h2, -⟩ := value_head h
  rw [h1]; simp [Stop, h2]

theorem stop_cons {c : UInt8} {t : Text} (h : isWs c = false) : Stop isWs (c :: t) := by simp [Stop, h]

/-- What follows a value: nothing, or a byte that cannot continue a token. -/
abbrev Ends (t : Text) : Prop := Stop tokByte t

theorem ends_cons {c : UInt8} {t : Text} (h : tokByte c = false) : Ends (c :: t) := by simp [Stop, h]

theorem ends_ws {r t : Text} (hr : Ws r) (ht : Ends t) : Ends (r ++ t) := by
  cases r with
  | nil => exact ht
  | cons c r =>
    simp only [Ws, List.all_cons, Bool.and_eq_true] at hr
    refine ends_cons ?_
    cases htk : tokByte c with
    | false => rfl
    | true => rw [(tokByte_ne htk).1] at hr; exact absurd hr.1 (by simp)

mutual
theorem tree_unique : ∀ (a b : Json) (t u : Text), a.wf → b.wf → Ends t → Ends u → a.render ++ t = b.render ++ u →
    a.norm = b.norm ∧ t = u
  | .lit x, b, t, u, ha, hb, ht, hu, h => by
    cases b with
    | lit y =>
      simp only [Json.wf, Bool.and_eq_true] at ha hb
      simp only [Json.render] at h
      obtain ⟨rfl, rfl⟩ := span_unique ha.2 hb.2 ht hu h
      exact ⟨rfl, rfl⟩
    | str y =>
      obtain ⟨c, r, h1, -, -, -, -, -, h2⟩ := value_head ha
      obtain ⟨d, s, g1, -, -, -, -, -, g2⟩ := value_head hb
      simp only at h2 g2
      rw [h1, g1, List.cons_append, List.cons_append, List.cons.injEq] at h
      exact absurd (h.1.trans g2) (tokByte_ne h2).2.1
    | arr g es =>
      obtain ⟨c, r, h1, -, -, -, -, -, h2⟩ := value_head ha
      obtain ⟨d, s, g1, -, -, -, -, -, g2⟩ := value_head hb
      simp only at h2 g2
      rw [h1, g1, List.cons_append, List.cons_append, List.cons.injEq] at h
      exact absurd (h.1.trans g2) (tokByte_ne h2).2.2.2.2.2.1
    | obj g es =>
      obtain ⟨c, r, h1, -, -, -, -, -, h2⟩ := value_head ha
      obtain ⟨d, s, g1, -, -, -, -, -, g2⟩ := value_head hb
      simp only at h2 g2
      rw [h1, g1, List.cons_append, List.cons_append, List.cons.injEq] at h
      exact absurd (h.1.trans g2) (tokByte_ne h2).2.2.2.2.2.2.2.1
  | .str x, b, t, u, ha, hb, ht, hu, h => by
    cases b with
    | lit y =>
      obtain ⟨d, s, g1, -, -, -, -, -, g2⟩ := value_head hb
      simp only at g2
      rw [g1, Json.render, List.cons_append, List.cons_append, List.cons.injEq] at h
      exact absurd h.1.symm (tokByte_ne g2).2.1
    | str y =>
      simp only [Json.render, List.cons_append, List.cons.injEq, true_and, List.append_assoc, List.nil_append] at h
      obtain ⟨rfl, rfl⟩ := str_unique x ha hb h
      exact ⟨rfl, rfl⟩
    | arr g es => rw [Json.render, Json.render, List.cons_append, List.cons_append, List.cons.injEq] at h; exact absurd h.1 (by decide)
    | obj g es => rw [Json.render, Json.render, List.cons_append, List.cons_append, List.cons.injEq] at h; exact absurd h.1 (by decide)
  | .arr gx es, b, t, u, ha, hb, ht, hu, h => by
    cases b with
    | lit y =>
      obtain ⟨d, s, g1, -, -, -, -, -, g2⟩ := value_head hb
      simp only at g2
      rw [g1, Json.render, List.cons_append, List.cons_append, List.cons.injEq] at h
      exact absurd h.1.symm (tokByte_ne g2).2.2.2.2.2.1
    | str y => rw [Json.render, Json.render, List.cons_append, List.cons_append, List.cons.injEq] at h; exact absurd h.1 (by decide)
    | obj g es => rw [Json.render, Json.render, List.cons_append, List.cons_append, List.cons.injEq] at h; exact absurd h.1 (by decide)
    | arr gy es' =>
      rw [wf_arr] at ha hb
      simp only [Json.render, List.cons_append, List.cons.injEq, true_and, List.append_assoc, List.nil_append] at h
      have empty : ∀ {g : Text} {e : Elem Json} {es : List (Elem Json)} {t u : Text}, Ws g → wfElems (e :: es) → ¬ g ++ 93 :: t = renderElems (e :: es) ++ 93 :: u := by
        intro g e es t u hg he h
        obtain ⟨l, v, r⟩ := e
        simp only [wfElems, Bool.and_eq_true] at he
        obtain ⟨⟨⟨h1, h2⟩, h3⟩, h4⟩ := he
        simp only [renderElems, List.append_assoc] at h
        replace h := span_unique hg h1 (stop_cons (by decide)) (value_stop h2 _) h
        obtain ⟨-, h⟩ := h
        obtain ⟨c, s, g1, -, g3, -⟩ := value_head h2
        rw [g1, List.cons_append, List.cons.injEq] at h
        exact g3 h.1.symm
      cases es with
      | nil =>
        cases es' with
        | nil =>
          simp only [List.isEmpty_nil, if_true] at h
          replace h := span_unique ha.1 hb.1 (stop_cons (by decide)) (stop_cons (by decide)) h
          obtain ⟨rfl, h⟩ := h
          simp only [List.cons.injEq, true_and] at h
          exact ⟨rfl, h⟩
        | cons e' es' =>
          simp only [List.isEmpty_nil, List.isEmpty_cons, if_true, Bool.false_eq_true, if_false] at h
          exact absurd h (empty ha.1 hb.2)
      | cons e es =>
        cases es' with
        | nil =>
          simp only [List.isEmpty_nil, List.isEmpty_cons, if_true, Bool.false_eq_true, if_false] at h
          exact absurd h.symm (empty hb.1 ha.2)
        | cons e' es' =>
          simp only [List.isEmpty_cons, Bool.false_eq_true, if_false] at h
          obtain ⟨h1, h2⟩ := elems_unique (e :: es) (e' :: es') t u (by simp) (by simp) ha.2 hb.2 h
          exact ⟨by simp [Json.norm, h1], h2⟩
  | .obj gx es, b, t, u, ha, hb, ht, hu, h => by
    cases b with
    | lit y =>
      obtain ⟨d, s, g1, -, -, -, -, -, g2⟩ := value_head hb
      simp only at g2
      rw [g1, Json.render, List.cons_append, List.cons_append, List.cons.injEq] at h
      exact absurd h.1.symm (tokByte_ne g2).2.2.2.2.2.2.2.1
    | str y => rw [Json.render, Json.render, List.cons_append, List.cons_append, List.cons.injEq] at h; exact absurd h.1 (by decide)
    | arr g es => rw [Json.render, Json.render, List.cons_append, List.cons_append, List.cons.injEq] at h; exact absurd h.1 (by decide)
    | obj gy es' =>
      rw [wf_obj] at ha hb
      simp only [Json.render, List.cons_append, List.cons.injEq, true_and, List.append_assoc, List.nil_append] at h
      have empty : ∀ {g : Text} {e : Member Json} {es : List (Member Json)} {t u : Text}, Ws g → wfMembers (e :: es) → ¬ g ++ 125 :: t = renderMembers (e :: es) ++ 125 :: u := by
        intro g e es t u hg he h
        obtain ⟨l, k, m, l2, v, r⟩ := e
        simp only [wfMembers, Bool.and_eq_true] at he
        obtain ⟨⟨⟨⟨⟨⟨h1, -⟩, -⟩, -⟩, -⟩, -⟩, -⟩ := he
        simp only [renderMembers, List.append_assoc, List.cons_append] at h
        replace h := span_unique hg h1 (stop_cons (by decide)) (stop_cons (by decide)) h
        obtain ⟨-, h⟩ := h
        rw [List.cons.injEq] at h
        exact absurd h.1 (by decide)
      cases es with
      | nil =>
        cases es' with
        | nil =>
          simp only [List.isEmpty_nil, if_true] at h
          replace h := span_unique ha.1 hb.1 (stop_cons (by decide)) (stop_cons (by decide)) h
          obtain ⟨rfl, h⟩ := h
          simp only [List.cons.injEq, true_and] at h
          exact ⟨rfl, h⟩
        | cons e' es' =>
          simp only [List.isEmpty_nil, List.isEmpty_cons, if_true, Bool.false_eq_true, if_false] at h
          exact absurd h (empty ha.1 hb.2)
      | cons e es =>
        cases es' with
        | nil =>
          simp only [List.isEmpty_nil, List.isEmpty_cons, if_true, Bool.false_eq_true, if_false] at h
          exact absurd h.symm (empty hb.1 ha.2)
        | cons e' es' =>
          simp only [List.isEmpty_cons, Bool.false_eq_true, if_false] at h
          obtain ⟨h1, h2⟩ := members_unique (e :: es) (e' :: es') t u (by simp) (by simp) ha.2 hb.2 h
          exact ⟨by simp [Json.norm, h1], h2⟩
theorem elems_unique : ∀ (es es' : List (Elem Json)) (t u : Text), es ≠ [] → es' ≠ [] → wfElems es → wfElems es' →
    renderElems es ++ 93 :: t = renderElems es' ++ 93 :: u → normElems es = normElems es' ∧ t = u
  | [], _, _, _, h, _, _, _, _ => absurd rfl h
  | ⟨l, v, r⟩ :: es, [], _, _, _, h, _, _, _ => absurd rfl h
  | ⟨l, v, r⟩ :: es, ⟨l', v', r'⟩ :: es', t, u, _, _, ha, hb, h => by
    simp only [wfElems, Bool.and_eq_true] at ha hb
    obtain ⟨⟨⟨a1, a2⟩, a3⟩, a4⟩ := ha
    obtain ⟨⟨⟨b1, b2⟩, b3⟩, b4⟩ := hb
    simp only [renderElems, List.append_assoc] at h
    replace h := span_unique a1 b1 (value_stop a2 _) (value_stop b2 _) h
    obtain ⟨rfl, h⟩ := h
    have tl : ∀ (es : List (Elem Json)) (t : Text), ∃ c s, (if es.isEmpty then [] else 44 :: renderElems es) ++ 93 :: t = c :: s ∧
        tokByte c = false ∧ isWs c = false := by
      intro es t
      cases es with
      | nil => exact ⟨93, t, rfl, by decide, by decide⟩
      | cons e es => exact ⟨44, _, rfl, by decide, by decide⟩
    obtain ⟨c, s, c1, c2, c3⟩ := tl es t
    obtain ⟨c', s', c1', c2', c3'⟩ := tl es' u
    replace h := tree_unique v v' _ _ a2 b2 (by rw [c1]; exact ends_ws a3 (ends_cons c2)) (by rw [c1']; exact ends_ws b3 (ends_cons c2')) h
    obtain ⟨hv, h⟩ := h
    replace h := span_unique a3 b3 (by rw [c1]; simp [Stop, c3]) (by rw [c1']; simp [Stop, c3']) h
    obtain ⟨rfl, h⟩ := h
    cases es with
    | nil =>
      cases es' with
      | nil => simp only [List.isEmpty_nil, if_true, List.nil_append, List.cons.injEq, true_and] at h; exact ⟨by simp [normElems, hv], h⟩
      | cons e' es' => simp at h
    | cons e es =>
      cases es' with
      | nil => simp at h
      | cons e' es' =>
        simp only [List.isEmpty_cons, Bool.false_eq_true, if_false, List.cons_append, List.cons.injEq, true_and] at h
        obtain ⟨h1, h2⟩ := elems_unique (e :: es) (e' :: es') t u (by simp) (by simp) a4 b4 h
        exact ⟨by rw [normElems.eq_2 l v r, normElems.eq_2 l v' r, hv, h1], h2⟩
theorem members_unique : ∀ (es es' : List (Member Json)) (t u : Text), es ≠ [] → es' ≠ [] → wfMembers es → wfMembers es' →
    renderMembers es ++ 125 :: t = renderMembers es' ++ 125 :: u → normMembers es = normMembers es' ∧ t = u
  | [], _, _, _, h, _, _, _, _ => absurd rfl h
  | ⟨l, k, m, l2, v, r⟩ :: es, [], _, _, _, h, _, _, _ => absurd rfl h
  | ⟨l, k, m, l2, v, r⟩ :: es, ⟨l', k', m', l2', v', r'⟩ :: es', t, u, _, _, ha, hb, h => by
    simp only [wfMembers, Bool.and_eq_true] at ha hb
    obtain ⟨⟨⟨⟨⟨⟨a1, ak⟩, am⟩, al⟩, a2⟩, a3⟩, a4⟩ := ha
    obtain ⟨⟨⟨⟨⟨⟨b1, bk⟩, bm⟩, bl⟩, b2⟩, b3⟩, b4⟩ := hb
    simp only [renderMembers, List.append_assoc, List.cons_append] at h
    replace h := span_unique a1 b1 (stop_cons (by decide)) (stop_cons (by decide)) h
    obtain ⟨rfl, h⟩ := h
    rw [List.cons.injEq] at h
    replace h := str_unique k ak bk h.2
    obtain ⟨rfl, h⟩ := h
    replace h := span_unique am bm (stop_cons (by decide)) (stop_cons (by decide)) h
    obtain ⟨rfl, h⟩ := h
    rw [List.cons.injEq] at h
    replace h := span_unique al bl (value_stop a2 _) (value_stop b2 _) h.2
    obtain ⟨rfl, h⟩ := h
    have tl : ∀ (es : List (Member Json)) (t : Text), ∃ c s, (if es.isEmpty then [] else 44 :: renderMembers es) ++ 125 :: t = c :: s ∧
        tokByte c = false ∧ isWs c = false := by
      intro es t
      cases es with
      | nil => exact ⟨125, t, rfl, by decide, by decide⟩
      | cons e es => exact ⟨44, _, rfl, by decide, by decide⟩
    obtain ⟨c, s, c1, c2, c3⟩ := tl es t
    obtain ⟨c', s', c1', c2', c3'⟩ := tl es' u
    replace h := tree_unique v v' _ _ a2 b2 (by rw [c1]; exact ends_ws a3 (ends_cons c2)) (by rw [c1']; exact ends_ws b3 (ends_cons c2')) h
    obtain ⟨hv, h⟩ := h
    replace h := span_unique a3 b3 (by rw [c1]; simp [Stop, c3]) (by rw [c1']; simp [Stop, c3']) h
    obtain ⟨rfl, h⟩ := h
    cases es with
    | nil =>
      cases es' with
      | nil => simp only [List.isEmpty_nil, if_true, List.nil_append, List.cons.injEq, true_and] at h; exact ⟨by simp [normMembers, hv], h⟩
      | cons e' es' => simp at h
    | cons e es =>
      cases es' with
      | nil => simp at h
      | cons e' es' =>
        simp only [List.isEmpty_cons, Bool.false_eq_true, if_false, List.cons_append, List.cons.injEq, true_and] at h
        obtain ⟨h1, h2⟩ := members_unique (e :: es) (e' :: es') t u (by simp) (by simp) a4 b4 h
        exact ⟨by rw [normMembers.eq_2 l k m l2 v r, normMembers.eq_2 l k m l2 v' r, hv, h1], h2⟩
end

theorem doc_unique {d e : Doc} (hd : d.wf) (he : e.wf) (h : d.render = e.render) :
    d.lead = e.lead ∧ d.root.norm = e.root.norm ∧ d.trail = e.trail := by
  simp only [Doc.wf, Bool.and_eq_true] at hd he
  obtain ⟨h1, h⟩ := span_unique hd.1.1 he.1.1 (value_stop hd.1.2 _) (value_stop he.1.2 _) h
  have ends : ∀ {t : Text}, Ws t → Ends t := by
    intro t ht
    have := ends_ws ht (t := []) rfl
    simpa using this
  obtain ⟨h2, h3⟩ := tree_unique _ _ _ _ hd.1.2 he.1.2 (ends hd.2) (ends he.2) h
  exact ⟨h1, h2, h3⟩

theorem normElems_map : ∀ (es : List (Elem Json)), normElems es = es.map fun e => { e with v := e.v.norm }
  | [] => rfl
  | ⟨l, v, r⟩ :: es => by simp [normElems, normElems_map es]

theorem normMembers_map : ∀ (es : List (Member Json)), normMembers es = es.map fun e => { e with v := e.v.norm }
  | [] => rfl
  | ⟨l, k, m, l2, v, r⟩ :: es => by simp [normMembers, normMembers_map es]

theorem norm_child (j : Json) (p : Text) : j.norm.child? p = (j.child? p).map Json.norm := by
  cases j with
  | lit t => rfl
  | str t => rfl
  | arr g es =>
    simp only [Json.norm, Json.child?, normElems_map]
    cases readIndex p with
    | none => rfl
    | some n => simp [Function.comp_def]
  | obj g ms =>
    have : memberIdx (normMembers ms) p = memberIdx ms p := by
      simp only [memberIdx, normMembers_map, List.findIdx?_map, Function.comp_def]
    simp only [Json.norm, Json.child?, this]
    cases memberIdx ms p with
    | none => rfl
    | some n => simp [normMembers_map, Function.comp_def]

theorem norm_get (p : List Text) : ∀ (j : Json), j.norm.get? p = (j.get? p).map Json.norm := by
  induction p with
  | nil => intro j; rfl
  | cons q p ih =>
    intro j
    simp only [Json.get?, norm_child]
    cases j.child? q with
    | none => rfl
    | some c => exact ih c

mutual
theorem norm_render : ∀ (j : Json), j.norm.render = j.render
  | .lit t => rfl
  | .str t => rfl
  | .arr g es => by
    cases es with
    | nil => simp [Json.norm, Json.render, normElems]
    | cons e es =>
      have := norm_renderElems (e :: es)
      simp only [Json.norm, Json.render, this]
      simp [normElems]
  | .obj g es => by
    cases es with
    | nil => simp [Json.norm, Json.render, normMembers]
    | cons e es =>
      have := norm_renderMembers (e :: es)
      simp only [Json.norm, Json.render, this]
      simp [normMembers]
theorem norm_renderElems : ∀ (es : List (Elem Json)), renderElems (normElems es) = renderElems es
  | [] => rfl
  | ⟨l, v, r⟩ :: es => by
    simp only [normElems, renderElems, norm_render v, norm_renderElems es]
    congr 4
    cases es <;> simp [normElems]
theorem norm_renderMembers : ∀ (es : List (Member Json)), renderMembers (normMembers es) = renderMembers es
  | [] => rfl
  | ⟨l, k, m, l2, v, r⟩ :: es => by
    simp only [normMembers, renderMembers, norm_render v, norm_renderMembers es]
    congr 9
    cases es <;> simp [normMembers]
end

end Jin
