import Verif.Proof.ParserMut
/-!
# Proof.ParserWalk — what the tree resolves, the document resolves

A Go slice has at most `2^63 - 1` bytes, so every index of an array fits in an `int`;
this is the hypothesis on the length of the text.
-/

namespace Jin
open Spec

theorem renderEnt_length : ∀ xs : List Ent, xs.length ≤ (renderEnt xs).length + 1
  | [] => by simp
  | [x] => by simp
  | x :: y :: xs => by
    have := renderEnt_length (y :: xs)
    rw [renderEnt]
    simp only [List.isEmpty_cons, Bool.false_eq_true, if_false, List.length_append, List.length_cons] at *
    omega

theorem elems_le {d : Doc} {p : List Text} {g : Text} {es : List (Elem Json)} (hd : d.wf) (h : d.get? p = some (.arr g es)) :
    es.length < d.render.length := by
  obtain ⟨A, B, h1, -⟩ := containerSpan_ok hd h rfl .arrayExpected
  have h2 : (Json.arr g es).render = _ := render_container rfl
  have h3 := renderEnt_length (ents (.arr g es))
  have h4 : (ents (.arr g es)).length = es.length := by simp [ents]
  have h5 : es.length ≤ (inner (.arr g es)).length + 1 := by
    unfold inner
    split
    · next h => simp only [List.isEmpty_iff] at h; rw [h] at h4; simp only [List.length_nil] at h4; omega
    · omega
  rw [h1]
  simp only [List.length_append, h2, List.length_cons, List.length_nil]
  omega

/-- A label of the tree below `w` is an entry of `w`. -/
theorem kids_child {d : Doc} {pre : List Text} {w : Json} {ds : List Node} {q : Text} {nd : Node} (hd : d.wf)
    (hb : (d.render.length : Int) ≤ 9223372036854775807) (hg : d.get? pre = some w) (hk : Kids ds w)
    (hf : ds.find? (fun d => d.label == q) = some nd) : ∃ c, w.child? q = some c := by
  cases w with
  | lit _ => simp only [Kids] at hk; subst hk; simp at hf
  | str _ => simp only [Kids] at hk; subst hk; simp at hf
  | arr g es =>
    rw [Kids] at hk
    rcases hk with ⟨-, rfl⟩ | hk
    · simp at hf
    · obtain ⟨n, e, h1, h2, -⟩ := kidsE_find hk hf
      have hl := elems_le hd hg
      have hn := (List.getElem?_eq_some_iff.1 h2).1
      have hr : readIndex q = some n := by
        rw [h1, Nat.zero_add]
        exact readIndex_itoa (by omega)
      exact ⟨e.v, by simp [Json.child?, hr, h2]⟩
  | obj g ms =>
    rw [Kids] at hk
    have := kidsM_find (p := q) hk
    cases hm : memberIdx ms q with
    | none => rw [hm] at this; rw [this] at hf; cases hf
    | some n =>
      rw [hm] at this
      obtain ⟨_, m, -, h2, -⟩ := this
      exact ⟨m.v, by simp [Json.child?, hm, h2]⟩

theorem walk_get_from {d : Doc} (hd : d.wf) (hb : (d.render.length : Int) ≤ 9223372036854775807) :
    ∀ (rest pre : List Text) {n nd : Node} {w : Json}, d.get? pre = some w → Kids n.down w → n.walk rest = .ok nd →
    ∃ w', d.get? (pre ++ rest) = some w' ∧ Kids nd.down w' ∧ (rest ≠ [] → Agree nd w')
  | [], pre, n, nd, w, hg, hk, hw => by
    rw [Node.walk] at hw
    cases hw
    exact ⟨w, by simpa using hg, hk, by simp⟩
  | q :: rest, pre, n, nd, w, hg, hk, hw => by
    rw [Node.walk] at hw
    cases hf : n.down.find? (fun d => d.label == q) with
    | none => rw [hf] at hw; cases hw
    | some c =>
      rw [hf] at hw
      replace hw : c.walk rest = .ok nd := hw
      obtain ⟨v, hv⟩ := kids_child hd hb hg hk hf
      have ha := kids_step hk hv hf
      have hg' : d.get? (pre ++ [q]) = some v := by
        rw [Doc.get?, get_append, show d.root.get? pre = some w from hg]
        simp [Json.get?, hv]
      obtain ⟨w', h1, h2, h3⟩ := walk_get_from hd hb rest (pre ++ [q]) hg' ha.2 hw
      refine ⟨w', by simpa using h1, h2, fun _ => ?_⟩
      by_cases hr : rest = []
      · subst hr
        rw [Node.walk] at hw
        cases hw
        have : v = w' := by simpa [hg'] using h1
        exact this ▸ ha
      · exact h3 hr

/-- Every path that the tree resolves leads to a value of the document. -/
theorem walk_get {p : Parser} {d : Doc} {path : List Text} {nd : Node} (hs : Sync p d)
    (hb : (d.render.length : Int) ≤ 9223372036854775807) (hw : p.core.walk path = .ok nd) :
    ∃ w, d.get? path = some w ∧ Kids nd.down w ∧ (path ≠ [] → Agree nd w) := by
  simpa using walk_get_from hd hb path [] (show d.get? [] = some d.root from rfl) hs.kids hw
where hd := hs.wf

/-- A node below the parent is labelled `new`: the path to it resolves. -/
theorem label_get {p : Parser} {d : Doc} {path : List Text} {up : Node} {new : Text} (hs : Sync p d)
    (hb : (d.render.length : Int) ≤ 9223372036854775807) (hw : p.core.walk path = .ok up)
    (hn : up.down.any (fun d => d.label == new) = true) : ∃ c, d.get? (path ++ [new]) = some c := by
  obtain ⟨w, h1, h2, -⟩ := walk_get hs hb hw
  cases hf : up.down.find? (fun d => d.label == new) with
  | none =>
    rw [List.any_eq_true] at hn
    obtain ⟨x, hx, hx'⟩ := hn
    rw [List.find?_eq_none] at hf
    exact absurd hx' (hf x hx)
  | some nd =>
    obtain ⟨c, hc⟩ := kids_child hs.wf hb h1 h2 hf
    refine ⟨c, ?_⟩
    rw [Doc.get?, get_append, show d.root.get? path = some w from h1]
    simp [Json.get?, hc]

end Jin
