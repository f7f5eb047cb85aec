import Verif.Spec.Rfc
import Verif.Proof.Format
import Verif.Proof.Tree

/-!
# Proof.Rfc — the grammar of RFC 8259 and the trees
-/

namespace Jin
open Spec

theorem numDigit_tok {c : UInt8} (h : isNumDigit c) : tokByte c := by
  cases ht : tokByte c with
  | true => rfl
  | false =>
    simp only [tokByte, isWs, Bool.not_eq_false', Bool.or_eq_true, beq_iff_eq] at ht
    rcases ht with ((((((((((((rfl | rfl) | rfl) | rfl) | rfl) | rfl) | rfl) | rfl) | rfl) | rfl) | rfl) | rfl)) <;> revert h <;> decide

theorem step_tok {s s' : NumSt} {c : UInt8} (h : s.step c = some s') : tokByte c := by
  cases s <;> simp only [NumSt.step] at h <;> repeat' split at h
  all_goals first
    | (cases h; done)
    | (rename_i g; exact numDigit_tok g)
    | (rename_i g; simp only [Bool.or_eq_true, beq_iff_eq] at g; rcases g with rfl | rfl <;> decide)
    | (rename_i g; simp only [beq_iff_eq] at g; subst g; decide)

theorem run_tok : ∀ {t : Text} {s : NumSt}, s.run t → t.all tokByte
  | [], _, _ => rfl
  | c :: r, s, h => by
    simp only [NumSt.run] at h
    split at h
    · rename_i s' hs
      simp [step_tok hs, run_tok h]
    · exact absurd h (by simp)

theorem rnumber_wf {t : Text} (h : rnumber t) : (Json.lit t).wf := by
  refine lit_wf.2 ⟨?_, run_tok h⟩
  rintro rfl
  exact absurd h (by decide)

theorem rname_wf {t : Text} (h : rname t) : (Json.lit t).wf := by
  simp only [rname, Bool.or_eq_true, beq_iff_eq] at h
  rcases h with (rfl | rfl) | rfl <;> decide

theorem hex_plain {c : UInt8} (h : isHex c) : c ≠ 0x22 ∧ c ≠ 0x5C := by
  constructor <;> rintro rfl <;> revert h <;> decide

theorem rchars_strOk : ∀ (t : Text), rchars t → strOk t
  | [], _ => rfl
  | c :: r, h => by
    unfold rchars at h
    split at h
    · rename_i hh; exact absurd hh (by simp)
    · rename_i a b c' d r' hh
      cases hh
      simp only [Bool.and_eq_true] at h
      obtain ⟨⟨⟨⟨ha, hb⟩, hc⟩, hd⟩, hr⟩ := h
      have ih := rchars_strOk r' hr
      have p : ∀ {c : UInt8} {r : Text}, isHex c → strOk r → strOk (c :: r) := fun hx hs => by
        obtain ⟨h1, h2⟩ := hex_plain hx
        unfold strOk; split
        · simp at *
        · simp_all
        · simp_all
      show strOk (a :: b :: c' :: d :: r')
      exact p ha (p hb (p hc (p hd ih)))
    · rename_i c' r' _ hh
      cases hh
      simp only [Bool.and_eq_true] at h
      exact rchars_strOk r' h.2
    · rename_i c' r' h1 h2 hh
      cases hh
      simp only [Bool.and_eq_true] at h
      have ih := rchars_strOk r h.2
      have h5 : c ≠ 0x5C := by simpa using h.1.2
      have h6 : c ≠ 0x22 := by simpa using h.1.1.2
      unfold strOk; split
      · simp at *
      · simp_all
      · simp_all
termination_by t => t.length

theorem strictElems_iff : ∀ {es : List (Elem Json)}, strictElems es ↔ ∀ e ∈ es, e.v.strict
  | [] => by simp [strictElems]
  | e :: es => by obtain ⟨l, v, r⟩ := e; simp [strictElems, @strictElems_iff es]

theorem strictMembers_iff : ∀ {ms : List (Member Json)}, strictMembers ms ↔ ∀ m ∈ ms, rchars m.key ∧ m.v.strict
  | [] => by simp [strictMembers]
  | e :: es => by obtain ⟨l, k, m, l2, v, r⟩ := e; simp [strictMembers, @strictMembers_iff es]

/-- A tree of an RFC value. -/
def TreeOf (t : Text) (j : Json) : Prop := j.wf ∧ j.strict ∧ j.render = t

theorem rfc_tree {t : Text} (h : RValue t) : ∃ j, TreeOf t j := by
  refine RValue.rec (motive_1 := fun t _ => ∃ j, TreeOf t j)
    (motive_2 := fun t _ => ∃ es, es ≠ [] ∧ wfElems es ∧ strictElems es ∧ renderElems es = t)
    (motive_3 := fun t _ => ∃ ms, ms ≠ [] ∧ wfMembers ms ∧ strictMembers ms ∧ renderMembers ms = t)
    ?_ ?_ ?_ ?_ ?_ ?_ ?_ ?_ ?_ ?_ ?_ h
  · intro t h
    exact ⟨.lit t, rname_wf h, by simp [Json.strict, h], by simp [Json.render]⟩
  · intro t h
    exact ⟨.lit t, rnumber_wf h, by simp [Json.strict, h], by simp [Json.render]⟩
  · intro t h
    exact ⟨.str t, by simp [Json.wf, rchars_strOk t h], by simp [Json.strict, h], by simp [Json.render]⟩
  · intro w h
    exact ⟨.arr w [], by simp [Json.wf, wfElems, h], by simp [Json.strict, strictElems], by simp [Json.render]⟩
  · rintro t - ⟨es, h1, h2, h3, h4⟩
    exact ⟨.arr [] es, by simp [Json.wf, h2, Ws], by simp [Json.strict, h3], by simp [Json.render, h1, h4]⟩
  · intro w h
    exact ⟨.obj w [], by simp [Json.wf, wfMembers, h], by simp [Json.strict, strictMembers], by simp [Json.render]⟩
  · rintro t - ⟨es, h1, h2, h3, h4⟩
    exact ⟨.obj [] es, by simp [Json.wf, h2, Ws], by simp [Json.strict, h3], by simp [Json.render, h1, h4]⟩
  · rintro l v r hl - hr ⟨j, h1, h2, h3⟩
    exact ⟨[⟨l, j, r⟩], by simp, by simp [wfElems, hl, hr, h1], by simp [strictElems, h2], by simp [renderElems, h3]⟩
  · rintro l v r t hl - hr - ⟨j, h1, h2, h3⟩ ⟨es, g1, g2, g3, g4⟩
    exact ⟨⟨l, j, r⟩ :: es, by simp, by simp [wfElems, hl, hr, h1, g2], by simp [strictElems, h2, g3],
      by simp [renderElems, h3, g1, g4]⟩
  · rintro l k m l2 v r hl hk hm hl2 - hr ⟨j, h1, h2, h3⟩
    exact ⟨[⟨l, k, m, l2, j, r⟩], by simp, by simp [wfMembers, hl, hr, hm, hl2, h1, rchars_strOk k hk],
      by simp [strictMembers, h2, hk], by simp [renderMembers, h3]⟩
  · rintro l k m l2 v r t hl hk hm hl2 - hr - ⟨j, h1, h2, h3⟩ ⟨es, g1, g2, g3, g4⟩
    exact ⟨⟨l, k, m, l2, j, r⟩ :: es, by simp, by simp [wfMembers, hl, hr, hm, hl2, h1, g2, rchars_strOk k hk],
      by simp [strictMembers, h2, hk, g3], by simp [renderMembers, h3, g1, g4]⟩

mutual
theorem tree_rfc : ∀ (j : Json), j.wf → j.strict → RValue j.render
  | .lit t, _, h => by
    simp only [Json.strict, Bool.or_eq_true] at h
    rcases h with h | h
    · simpa [Json.render] using RValue.name h
    · simpa [Json.render] using RValue.number h
  | .str raw, _, h => by simpa [Json.render] using RValue.string h
  | .arr gap es, h, g => by
    simp only [Json.wf, Bool.and_eq_true] at h
    simp only [Json.strict] at g
    simp only [Json.render]
    cases es with
    | nil => simpa using RValue.emptyArray h.1
    | cons e es => simpa using RValue.array (tree_elems (e :: es) (by simp) h.2 g)
  | .obj gap es, h, g => by
    simp only [Json.wf, Bool.and_eq_true] at h
    simp only [Json.strict] at g
    simp only [Json.render]
    cases es with
    | nil => simpa using RValue.emptyObject h.1
    | cons e es => simpa using RValue.object (tree_members (e :: es) (by simp) h.2 g)
theorem tree_elems : ∀ (es : List (Elem Json)), es ≠ [] → wfElems es → strictElems es → RElems (renderElems es)
  | [], h, _, _ => absurd rfl h
  | ⟨l, v, r⟩ :: es, _, h, g => by
    simp only [wfElems, Bool.and_eq_true] at h
    simp only [strictElems, Bool.and_eq_true] at g
    obtain ⟨⟨⟨h1, h2⟩, h3⟩, h4⟩ := h
    have iv := tree_rfc v h2 g.1
    simp only [renderElems]
    cases es with
    | nil => simpa using RElems.one h1 iv h3
    | cons e es => simpa using RElems.more h1 iv h3 (tree_elems (e :: es) (by simp) h4 g.2)
theorem tree_members : ∀ (es : List (Member Json)), es ≠ [] → wfMembers es → strictMembers es → RMembers (renderMembers es)
  | [], h, _, _ => absurd rfl h
  | ⟨l, k, m, l2, v, r⟩ :: es, _, h, g => by
    simp only [wfMembers, Bool.and_eq_true] at h
    simp only [strictMembers, Bool.and_eq_true] at g
    obtain ⟨⟨⟨⟨⟨⟨h1, -⟩, h3⟩, h4⟩, h5⟩, h6⟩, h7⟩ := h
    have iv := tree_rfc v h5 g.1.2
    simp only [renderMembers]
    cases es with
    | nil => simpa using RMembers.one h1 g.1.1 h3 h4 iv h6
    | cons e es => simpa using RMembers.more h1 g.1.1 h3 h4 iv h6 (tree_members (e :: es) (by simp) h7 g.2)
end

theorem rvalue_iff {t : Text} : RValue t ↔ ∃ j : Json, j.wf ∧ j.strict ∧ j.render = t :=
  ⟨rfc_tree, by rintro ⟨j, h1, h2, rfl⟩; exact tree_rfc j h1 h2⟩

theorem rtext_iff {t : Text} : RText t ↔ ∃ d : Doc, d.wf ∧ d.root.strict ∧ d.render = t := by
  constructor
  · rintro ⟨l, v, r, hl, hv, hr, rfl⟩
    obtain ⟨j, h1, h2, h3⟩ := rfc_tree hv
    exact ⟨⟨l, j, r⟩, by simp [Doc.wf, hl, h1, hr], h2, by simp [Doc.render, h3]⟩
  · rintro ⟨d, h1, h2, rfl⟩
    simp only [Doc.wf, Bool.and_eq_true] at h1
    exact ⟨d.lead, d.root.render, d.trail, h1.1.1, tree_rfc _ h1.1.2 h2, h1.2, rfl⟩

theorem strict_entries {w : Json} (h : w.kind ≠ .scalar) : w.strict ↔ ∀ e ∈ w.entries, e.strict := by
  cases w with
  | lit t => exact absurd rfl h
  | str t => exact absurd rfl h
  | arr g es => simp [Json.strict, strictElems_iff, Json.entries, Entry.strict]
  | obj g ms => simp [Json.strict, strictMembers_iff, Json.entries, Entry.strict]

theorem strict_valAt {j c : Json} {n : Nat} (hj : j.strict) (h : valAt j n = some c) : c.strict := by
  cases j with
  | lit t => simp [valAt] at h
  | str t => simp [valAt] at h
  | arr gp es =>
    simp only [valAt, Option.map_eq_some_iff] at h; obtain ⟨e, he, rfl⟩ := h
    rw [Json.strict, strictElems_iff] at hj
    exact hj e (List.mem_of_getElem? he)
  | obj gp es =>
    simp only [valAt, Option.map_eq_some_iff] at h; obtain ⟨e, he, rfl⟩ := h
    rw [Json.strict, strictMembers_iff] at hj
    exact (hj e (List.mem_of_getElem? he)).2

theorem strict_get (path : List Text) : ∀ {j w : Json}, j.strict → j.get? path = some w → w.strict := by
  induction path with
  | nil => intro j w hj h; simp only [Json.get?, Option.some.injEq] at h; exact h ▸ hj
  | cons p ps ih =>
    intro j w hj h
    obtain ⟨c, hc, hw⟩ := get_cons h
    obtain ⟨n, hn, hv⟩ := child_some hc
    exact ih (strict_valAt hj hv) hw

theorem strict_updAt {j c : Json} {n : Nat} {f : Json → Json} (hj : j.strict) (h : valAt j n = some c) (hf : (f c).strict) :
    (updAt j n f).strict := by
  have hm : ∀ {α : Type} {l : List α} {x y : α} {n : Nat} {g : α → α}, l[n]? = some x → y ∈ l.modify n g → y ∈ l ∨ y = g x := by
    intro α l x y n g hx hy
    obtain ⟨i, hi⟩ := List.mem_iff_getElem?.1 hy
    rw [List.getElem?_modify] at hi
    obtain ⟨z, hz, hzy⟩ := Option.map_eq_some_iff.1 hi
    split at hzy
    · rename_i hni; subst hni; rw [hx] at hz; cases hz; exact .inr hzy.symm
    · exact .inl (hzy ▸ List.mem_of_getElem? hz)
  cases j with
  | lit t => exact hj
  | str t => exact hj
  | arr gp es =>
    simp only [valAt, Option.map_eq_some_iff] at h; obtain ⟨e, he, rfl⟩ := h
    rw [Json.strict, strictElems_iff] at hj
    simp only [updAt, Json.strict]
    rw [strictElems_iff]
    intro y hy
    rcases hm he hy with hy | rfl
    · exact hj y hy
    · exact hf
  | obj gp es =>
    simp only [valAt, Option.map_eq_some_iff] at h; obtain ⟨e, he, rfl⟩ := h
    rw [Json.strict, strictMembers_iff] at hj
    simp only [updAt, Json.strict]
    rw [strictMembers_iff]
    intro y hy
    rcases hm he hy with hy | rfl
    · exact hj y hy
    · exact ⟨(hj e (List.mem_of_getElem? he)).1, hf⟩

theorem strict_upd (path : List Text) : ∀ {j w : Json} {f : Json → Json}, j.strict → j.get? path = some w → (f w).strict →
    (j.upd f path).strict := by
  induction path with
  | nil => intro j w f hj h hf; simp only [Json.get?, Option.some.injEq] at h; exact h ▸ hf
  | cons p ps ih =>
    intro j w f hj h hf
    obtain ⟨c, hc, hw⟩ := get_cons h
    obtain ⟨n, hn, hv⟩ := child_some hc
    rw [Json.upd, updChild_slot hn]
    exact strict_updAt hj hv (ih (strict_valAt hj hv) hw hf)

end Jin
