import Verif.Proof.ParserMut
import Verif.Model.ParserMore
/-!
# Proof.ParserDive — what `dive` puts together
-/

namespace Jin
open Spec

theorem diveList_cons (value : Bytes) (c : UInt8) (d : Node) (ds : List Node) :
    diveList value c (d :: ds) = (if d.down.isEmpty then (Out.ok d.value : Out Bytes) else d.dive) >>= fun val =>
      diveList value c ds >>= fun rest =>
        .ok ((if c == 123 then memberText d.label val else if c == 91 then val else []) ++ [44] ++ rest) := by
  cases d with
  | mk l v dn =>
    rw [diveList]
    cases dn <;> rfl

theorem renderElems_snoc_comma (e : Elem Json) (es : List (Elem Json)) :
    renderElems (e :: es) ++ [44] = e.l ++ (e.v.render ++ e.r) ++ [44] ++ (if es.isEmpty then [] else renderElems es ++ [44]) := by
  rw [renderElems_cons]
  cases es <;> simp

theorem renderMembers_snoc_comma (m : Member Json) (ms : List (Member Json)) (hl : m.l = []) (hm : m.m = []) :
    renderMembers (m :: ms) ++ [44] = memberText m.key (m.l2 ++ (m.v.render ++ m.r)) ++ [44] ++
      (if ms.isEmpty then [] else renderMembers ms ++ [44]) := by
  rw [renderMembers_cons, hl, hm]
  cases ms <;> simp [memberText]

mutual
theorem dive_ok : ∀ (v : Json) (n : Node), Agree n v → v.wf → n.down ≠ [] →
    ∃ v' : Json, n.dive = .ok v'.render ∧ v'.wf ∧ v'.strip = v.strip
  | .lit _, n, h, _, hn => by have := h.2; simp only [Kids] at this; exact absurd this hn
  | .str _, n, h, _, hn => by have := h.2; simp only [Kids] at this; exact absurd this hn
  | .arr g es, .mk label value down, h, hw, hn => by
    obtain ⟨⟨l, r, -, -, hv, hc⟩, hk⟩ := h
    obtain ⟨rfl, rfl⟩ := hc rfl
    simp only [Node.value, List.nil_append, List.append_nil] at hv
    simp only [Node.down] at hk hn
    rw [Kids] at hk
    rcases hk with ⟨-, hk⟩ | hk
    · exact absurd hk hn
    have hes : es ≠ [] := by rintro rfl; rw [KidsE] at hk; exact hn hk
    obtain ⟨es', h1, h2, h3, h4⟩ := diveE_ok es value hk (wf_arr.1 hw).2 hes
    refine ⟨.arr [] es', ?_, by simp [Json.wf, Ws, h3], by simp [Json.strip, h4]⟩
    have hi : idx value 0 = .ok 91 := by rw [hv, Json.render]; exact idx_nat (i := 0) rfl
    rw [Node.dive, hi]
    show (diveList value 91 down >>= fun body => _) = _
    rw [h1]
    show Out.ok ((91 :: (renderElems es' ++ [44])).dropLast ++ [91 + 2]) = _
    rw [← List.cons_append, List.dropLast_concat, Json.render, if_neg (by simpa using h2)]
    rfl
  | .obj g ms, .mk label value down, h, hw, hn => by
    obtain ⟨⟨l, r, -, -, hv, hc⟩, hk⟩ := h
    obtain ⟨rfl, rfl⟩ := hc rfl
    simp only [Node.value, List.nil_append, List.append_nil] at hv
    simp only [Node.down] at hk hn
    rw [Kids] at hk
    have hms : ms ≠ [] := by rintro rfl; rw [KidsM] at hk; exact hn hk
    obtain ⟨ms', h1, h2, h3, h4⟩ := diveM_ok ms value hk (wf_obj.1 hw).2 hms
    refine ⟨.obj [] ms', ?_, by simp [Json.wf, Ws, h3], by simp [Json.strip, h4]⟩
    have hi : idx value 0 = .ok 123 := by rw [hv, Json.render]; exact idx_nat (i := 0) rfl
    rw [Node.dive, hi]
    show (diveList value 123 down >>= fun body => _) = _
    rw [h1]
    show Out.ok ((123 :: (renderMembers ms' ++ [44])).dropLast ++ [123 + 2]) = _
    rw [← List.cons_append, List.dropLast_concat, Json.render, if_neg (by simpa using h2)]
    rfl
theorem diveE_ok : ∀ (es : List (Elem Json)) (value : Bytes) {k : Nat} {ds : List Node}, KidsE k ds es → wfElems es → es ≠ [] →
    ∃ es' : List (Elem Json), diveList value 91 ds = .ok (renderElems es' ++ [44]) ∧ es' ≠ [] ∧ wfElems es' ∧ stripElems es' = stripElems es
  | [], _, _, _, _, _, h => absurd rfl h
  | ⟨l0, v, r0⟩ :: es, value, k, ds, hk, hw, _ => by
    obtain ⟨d, rest, rfl, -, ha, hr⟩ := kidsE_cons.1 hk
    rw [wfElems_cons] at hw
    obtain ⟨l, r, v', e1, e2, e3, e4, e5⟩ : ∃ (l r : Bytes) (v' : Json), Ws l ∧ Ws r ∧ (if d.down.isEmpty then (Out.ok d.value : Out Bytes) else d.dive) =
        .ok (l ++ (v'.render ++ r)) ∧ v'.wf ∧ v'.strip = v.strip := by
      by_cases hd : d.down = []
      · obtain ⟨l, r, h1, h2, h3, -⟩ := ha.1
        exact ⟨l, r, v, h1, h2, by simp [hd, h3], hw.2.1, rfl⟩
      · obtain ⟨v', h1, h2, h3⟩ := dive_ok v d ha hw.2.1 hd
        exact ⟨[], [], v', rfl, rfl, by simp [hd, h1], h2, h3⟩
    rw [diveList_cons, e3]
    by_cases hes : es = []
    · subst hes
      rw [KidsE] at hr
      subst hr
      refine ⟨[⟨l, v', r⟩], ?_, by simp, by simp [wfElems, e1, e2, e4], by simp [stripElems, e5]⟩
      rw [renderElems_snoc_comma]
      rfl
    · obtain ⟨es', h1, h2, h3, h4⟩ := diveE_ok es value hr hw.2.2.2 hes
      refine ⟨⟨l, v', r⟩ :: es', ?_, by simp, by simp [wfElems, e1, e2, e4, h3], by simp [stripElems, e5, h4]⟩
      rw [renderElems_snoc_comma, if_neg (by simpa using h2), h1]
      rfl
theorem diveM_ok : ∀ (ms : List (Member Json)) (value : Bytes) {ds : List Node}, KidsM ds ms → wfMembers ms → ms ≠ [] →
    ∃ ms' : List (Member Json), diveList value 123 ds = .ok (renderMembers ms' ++ [44]) ∧ ms' ≠ [] ∧ wfMembers ms' ∧ stripMembers ms' = stripMembers ms
  | [], _, _, _, _, h => absurd rfl h
  | ⟨l0, key, m0, l20, v, r0⟩ :: ms, value, ds, hk, hw, _ => by
    obtain ⟨d, rest, rfl, hlab, ha, hr⟩ := kidsM_cons.1 hk
    rw [wfMembers_cons] at hw
    obtain ⟨l, r, v', e1, e2, e3, e4, e5⟩ : ∃ (l r : Bytes) (v' : Json), Ws l ∧ Ws r ∧ (if d.down.isEmpty then (Out.ok d.value : Out Bytes) else d.dive) =
        .ok (l ++ (v'.render ++ r)) ∧ v'.wf ∧ v'.strip = v.strip := by
      by_cases hd : d.down = []
      · obtain ⟨l, r, h1, h2, h3, -⟩ := ha.1
        exact ⟨l, r, v, h1, h2, by simp [hd, h3], hw.2.2.2.2.1, rfl⟩
      · obtain ⟨v', h1, h2, h3⟩ := dive_ok v d ha hw.2.2.2.2.1 hd
        exact ⟨[], [], v', rfl, rfl, by simp [hd, h1], h2, h3⟩
    rw [diveList_cons, e3]
    by_cases hes : ms = []
    · subst hes
      rw [KidsM] at hr
      subst hr
      refine ⟨[⟨[], key, [], l, v', r⟩], ?_, by simp, ?_, by simp [stripMembers, e5]⟩
      · rw [renderMembers_snoc_comma _ _ rfl rfl, ← hlab]
        rfl
      · rw [wfMembers_cons]; exact ⟨rfl, hw.2.1, rfl, e1, e4, e2, rfl⟩
    · obtain ⟨ms', h1, h2, h3, h4⟩ := diveM_ok ms value hr hw.2.2.2.2.2.2 hes
      refine ⟨⟨[], key, [], l, v', r⟩ :: ms', ?_, by simp, ?_, by simp [stripMembers, e5, h4]⟩
      · rw [renderMembers_snoc_comma _ _ rfl rfl, if_neg (by simpa using h2), h1, ← hlab]
        rfl
      · rw [wfMembers_cons]; exact ⟨rfl, hw.2.1, rfl, e1, e4, e2, h3⟩
end

end Jin
