import Verif.Proof.CoreMain
import Verif.Model.Set
/-!
# Proof.Upd — the text around an addressed value
-/

namespace Jin
open Spec

/-! ### Replacing a subtree replaces its text -/

theorem elem_upd {es : List (Elem Json)} : ∀ {n o : Nat} {v : Json}, elemAt es n = some (o, v) →
    ∃ A B, A.length = o ∧ renderElems es = A ++ (v.render ++ B) ∧
      ∀ g : Json → Json, renderElems (es.modify n fun e => { e with v := g e.v }) = A ++ ((g v).render ++ B) := by
  induction es with
  | nil => intro n o v h; simp [elemAt] at h
  | cons e es ih =>
    intro n o v h
    cases n with
    | zero =>
      simp only [elemAt, Option.some.injEq, Prod.mk.injEq] at h
      obtain ⟨rfl, rfl⟩ := h
      refine ⟨e.l, e.r ++ (if es.isEmpty then [] else 44 :: renderElems es), rfl, renderElems_cons e es, ?_⟩
      intro g
      rw [List.modify_zero_cons, renderElems_cons]
    | succ n =>
      simp only [elemAt, Option.map_eq_some_iff, Prod.exists, Prod.mk.injEq] at h
      obtain ⟨o', v', h, rfl, rfl⟩ := h
      obtain ⟨A, B, h1, h2, h3⟩ := ih h
      have hne := elemAt_ne h
      refine ⟨e.l ++ (e.v.render ++ (e.r ++ 44 :: A)), B, ?_, ?_, ?_⟩
      · simp [elemLen, h1]; omega
      · rw [renderElems_cons, if_neg (by simpa using hne), h2]; simp
      · intro g
        have hne' : (es.modify n fun e => { e with v := g e.v }) ≠ [] := by
          intro h'; apply hne; have := congrArg List.length h'; simp at this; exact this
        rw [List.modify_succ_cons, renderElems_cons, if_neg (by simpa using hne'), h3]; simp

theorem member_upd {ms : List (Member Json)} {k : Text} : ∀ {kp o : Nat} {v : Json}, memberAt ms k = some (kp, o, v) →
    ∃ n A B, memberIdx ms k = some n ∧ A.length = o ∧ renderMembers ms = A ++ (v.render ++ B) ∧
      ∀ g : Json → Json, renderMembers (ms.modify n fun m => { m with v := g m.v }) = A ++ ((g v).render ++ B) := by
  induction ms with
  | nil => intro n o v h; simp [memberAt] at h
  | cons m ms ih =>
    intro kp o v h
    rw [memberAt] at h
    by_cases hk : m.key = k
    · simp only [hk, if_true, Option.some.injEq, Prod.mk.injEq] at h
      obtain ⟨rfl, rfl, rfl⟩ := h
      refine ⟨0, m.l ++ ([34] ++ (m.key ++ ([34] ++ (m.m ++ ([58] ++ m.l2))))),
        m.r ++ (if ms.isEmpty then [] else 44 :: renderMembers ms), ?_, ?_, ?_, ?_⟩
      · simp [memberIdx, List.findIdx?_cons, hk]
      · simp [hk]; omega
      · rw [renderMembers_cons]; simp
      · intro g; rw [List.modify_zero_cons, renderMembers_cons]; simp
    · simp only [hk, if_false, Option.map_eq_some_iff, Prod.exists, Prod.mk.injEq] at h
      obtain ⟨kp', o', v', h, rfl, rfl, rfl⟩ := h
      obtain ⟨n, A, B, h0, h1, h2, h3⟩ := ih h
      have hne := memberAt_ne h
      refine ⟨n + 1, m.l ++ ([34] ++ (m.key ++ ([34] ++ (m.m ++ ([58] ++ (m.l2 ++ (m.v.render ++ (m.r ++ 44 :: A)))))))),
        B, ?_, ?_, ?_, ?_⟩
      · unfold memberIdx at h0 ⊢; simp [List.findIdx?_cons, hk, h0]
      · simp [memberLen, h1]; omega
      · rw [renderMembers_cons, if_neg (by simpa using hne), h2]; simp
      · intro g
        have hne' : (ms.modify n fun m => { m with v := g m.v }) ≠ [] := by
          intro h'; apply hne; have := congrArg List.length h'; simp at this; exact this
        rw [List.modify_succ_cons, renderMembers_cons, if_neg (by simpa using hne'), h3]; simp

theorem child_upd {j : Json} {p : Text} {f : Found} (h : childAt j p = some f) :
    ∃ A B, A.length = f.pos ∧ j.render = A ++ (f.val.render ++ B) ∧
      ∀ g : Json → Json, (j.updChild p g).render = A ++ ((g f.val).render ++ B) := by
  cases j with
  | lit t => simp [childAt] at h
  | str t => simp [childAt] at h
  | arr gp es =>
    simp only [childAt, Option.map_eq_some_iff, Option.bind_eq_some_iff, Prod.exists] at h
    obtain ⟨o, v, ⟨n, hn, he⟩, rfl⟩ := h
    obtain ⟨A, B, h1, h2, h3⟩ := elem_upd he
    have hne := elemAt_ne he
    refine ⟨91 :: A, B ++ [93], by simp [h1, Nat.add_comm], ?_, ?_⟩
    · rw [render_arr, if_neg (by simpa using hne), h2]; simp
    · intro g
      have hne' : (es.modify n fun e => { e with v := g e.v }) ≠ [] := by
        intro h'; apply hne; have := congrArg List.length h'; simp at this; exact this
      simp only [Json.updChild, hn]
      rw [render_arr, if_neg (by simpa using hne'), h3]; simp
  | obj gp ms =>
    simp only [childAt, Option.map_eq_some_iff, Prod.exists] at h
    obtain ⟨kp, o, v, he, rfl⟩ := h
    obtain ⟨n, A, B, h0, h1, h2, h3⟩ := member_upd he
    have hne := memberAt_ne he
    refine ⟨123 :: A, B ++ [125], by simp [h1, Nat.add_comm], ?_, ?_⟩
    · rw [render_obj, if_neg (by simpa using hne), h2]; simp
    · intro g
      have hne' : (ms.modify n fun e => { e with v := g e.v }) ≠ [] := by
        intro h'; apply hne; have := congrArg List.length h'; simp at this; exact this
      simp only [Json.updChild, h0]
      rw [render_obj, if_neg (by simpa using hne'), h3]; simp

/-- The text of a tree splits around the addressed value, and replacing that
value replaces exactly its text. -/
theorem find_upd (path : List Text) : ∀ {j : Json} {f : Found}, findAt j path = some f →
    ∃ A B, A.length = f.pos ∧ j.render = A ++ (f.val.render ++ B) ∧
      ∀ g : Json → Json, (j.upd g path).render = A ++ ((g f.val).render ++ B) := by
  induction path with
  | nil =>
    intro j f h
    simp only [findAt, Option.some.injEq] at h
    subst h
    exact ⟨[], [], rfl, by simp, fun g => by simp [Json.upd]⟩
  | cons p ps ih =>
    intro j f h
    rw [findAt] at h
    cases hc : childAt j p with
    | none => simp [hc] at h
    | some c =>
      simp only [hc] at h
      obtain ⟨A, B, h1, h2, h3⟩ := child_upd hc
      by_cases he : ps.isEmpty
      · simp only [he, if_true, Option.some.injEq] at h
        subst h
        rw [List.isEmpty_iff] at he; subst he
        refine ⟨A, B, h1, h2, ?_⟩
        intro g
        rw [Json.upd, h3]; rfl
      · simp only [he, Bool.false_eq_true, if_false, Option.map_eq_some_iff] at h
        obtain ⟨f', h', rfl⟩ := h
        obtain ⟨A', B', g1, g2, g3⟩ := ih h'
        refine ⟨A ++ A', B' ++ B, by simp [Found.shift, h1, g1], by rw [h2, g2]; simp [Found.shift], ?_⟩
        intro g
        rw [Json.upd, h3, g3]; simp [Found.shift]

/-! ### The byte before a value -/

/-- A byte that may come before a value inside a container. -/
def Precedes (c : UInt8) : Prop := isWs c ∨ c = 91 ∨ c = 44 ∨ c = 58

theorem precedes_ne {c : UInt8} (h : Precedes c) : c ≠ 34 := by
  rcases h with h | h | h | h
  · exact (isWs_ne h).1
  all_goals (subst h; decide)

theorem precedes_ws {json l : Bytes} {i : Nat} {c : UInt8} (hl : Ws l) (h : Seg json (i + 1) l)
    (hc : json[i]? = some c) (hf : Precedes c) : ∃ c, json[i + l.length]? = some c ∧ Precedes c := by
  cases hl' : l.length with
  | zero => exact ⟨c, by simpa using hc, hf⟩
  | succ n =>
    have hn : n < l.length := by omega
    refine ⟨l[n], ?_, Or.inl ?_⟩
    · have := h.getElem? (j := n) (c := l[n]) (by simp)
      rw [show i + (n + 1) = i + 1 + n by omega]; exact this
    · simp only [Ws, List.all_eq_true] at hl
      exact hl _ (List.getElem_mem hn)

theorem elem_prev {es : List (Elem Json)} {n o : Nat} {v : Json} {json : Bytes} {i : Nat} {c : UInt8}
    (hw : wfElems es) (hs : Seg json (i + 1) (renderElems es ++ [93])) (hc : json[i]? = some c) (hp : Precedes c)
    (h : elemAt es n = some (o, v)) : ∃ c, json[i + o]? = some c ∧ Precedes c := by
  induction es generalizing n o i c with
  | nil => simp [elemAt] at h
  | cons e es ih =>
    rw [renderElems_cons] at hs
    simp only [List.append_assoc] at hs
    rw [seg_append, seg_append, seg_append] at hs
    obtain ⟨h1, h2, h3, h4⟩ := hs
    rw [wfElems_cons] at hw
    obtain ⟨w1, w2, w3, w4⟩ := hw
    cases n with
    | zero =>
      simp only [elemAt, Option.some.injEq, Prod.mk.injEq] at h
      obtain ⟨rfl, rfl⟩ := h
      exact precedes_ws w1 h1 hc hp
    | succ n =>
      simp only [elemAt, Option.map_eq_some_iff, Prod.exists, Prod.mk.injEq] at h
      obtain ⟨o', v', h5, rfl, rfl⟩ := h
      rw [if_neg (by simpa using elemAt_ne h5), List.cons_append, seg_cons] at h4
      have := ih w4 h4.2 h4.1 (Or.inr (Or.inr (Or.inl rfl))) h5
      rw [show i + (elemLen e + 1 + o') = i + 1 + e.l.length + e.v.render.length + e.r.length + o' by
        unfold elemLen; omega]
      exact this

theorem member_prev {ms : List (Member Json)} {k : Text} {kp o : Nat} {v : Json} {json : Bytes} {i : Nat}
    (hw : wfMembers ms) (hs : Seg json i (renderMembers ms ++ [125]))
    (h : memberAt ms k = some (kp, o, v)) : 0 < o ∧ ∃ c, json[i + o - 1]? = some c ∧ Precedes c := by
  induction ms generalizing kp o i with
  | nil => simp [memberAt] at h
  | cons m ms ih =>
    obtain ⟨_, _, _, _, _, _, h4, w4, h5, _, _, _, _, w7, h8⟩ := member_parts hw hs
    rw [memberAt] at h
    by_cases hk : m.key = k
    · simp only [hk, if_true, Option.some.injEq, Prod.mk.injEq] at h
      obtain ⟨rfl, rfl, rfl⟩ := h
      refine ⟨by omega, ?_⟩
      have := precedes_ws w4 h5 h4 (Or.inr (Or.inr (Or.inr rfl)))
      rw [show i + (m.l.length + k.length + m.m.length + m.l2.length + 3) - 1 =
        i + m.l.length + (m.key.length + 2) + m.m.length + m.l2.length by rw [hk]; omega]
      exact this
    · simp only [hk, if_false, Option.map_eq_some_iff, Prod.exists, Prod.mk.injEq] at h
      obtain ⟨kp', o', v', h, rfl, rfl, rfl⟩ := h
      rw [if_neg (by simpa using memberAt_ne h), List.cons_append, seg_cons] at h8
      have := ih w7 h8.2 h
      refine ⟨by omega, ?_⟩
      rw [show i + (memberLen m + 1 + o') - 1 = i + memberLen m + 1 + o' - 1 by omega]
      exact this.2

theorem child_prev {j : Json} {p : Text} {f : Found} {json : Bytes} {i : Nat}
    (hw : j.wf) (hs : Seg json i j.render) (h : childAt j p = some f) :
    ∃ c, json[i + f.pos - 1]? = some c ∧ Precedes c := by
  cases j with
  | lit t => simp [childAt] at h
  | str t => simp [childAt] at h
  | arr g es =>
    simp only [childAt, Option.map_eq_some_iff, Option.bind_eq_some_iff, Prod.exists] at h
    obtain ⟨o, v, ⟨n, _, hn⟩, rfl⟩ := h
    obtain ⟨h1, h2⟩ := seg_arr (elemAt_ne hn) hs
    have := elem_prev (wf_arr.1 hw).2 h2 h1 (Or.inr (Or.inl rfl)) hn
    rw [show i + (1 + o) - 1 = i + o by omega]
    exact this
  | obj g ms =>
    simp only [childAt, Option.map_eq_some_iff, Prod.exists] at h
    obtain ⟨kp, o, v, hn, rfl⟩ := h
    have := member_prev (wf_obj.1 hw).2 (seg_obj (memberAt_ne hn) hs).2 hn
    rw [show i + (1 + o) - 1 = i + 1 + o - 1 by omega]
    exact this.2

theorem find_prev {path : List Text} (hp : path ≠ []) : ∀ {j : Json} {f : Found} {json : Bytes} {i : Nat},
    j.wf → Seg json i j.render → findAt j path = some f →
    ∃ c, json[i + f.pos - 1]? = some c ∧ Precedes c := by
  induction path with
  | nil => exact absurd rfl hp
  | cons p ps ih =>
    intro j f json i hw hs h
    rw [findAt] at h
    cases hc : childAt j p with
    | none => simp [hc] at h
    | some c =>
      simp only [hc] at h
      by_cases he : ps.isEmpty
      · simp only [he, if_true, Option.some.injEq] at h
        subst h; exact child_prev hw hs hc
      · simp only [he, Bool.false_eq_true, if_false, Option.map_eq_some_iff] at h
        obtain ⟨f', h', rfl⟩ := h
        obtain ⟨c1, c2, _, _⟩ := child_seg hw hs hc
        have := ih (by simpa using he) c2 c1 h'
        simp only [Found.shift, ← Nat.add_assoc]
        exact this

/-! ### Slices -/

theorem slice_ok {a : Bytes} {lo hi : Nat} (h1 : lo ≤ hi) (h2 : hi ≤ a.length) :
    slice a lo hi = .ok ((a.drop lo).take (hi - lo)) := by
  unfold slice
  rw [if_pos (by omega)]; rfl

/-- Slicing out a segment. -/
theorem slice_seg {json s : Bytes} {i j : Nat} (h : Seg json i s) (hj : j = i + s.length) (hi : j ≤ json.length) :
    slice json i j = .ok s := by
  rw [slice_ok (by omega) hi, show j - i = s.length by omega, h.drop_take]

theorem replace_ok {json new : Bytes} {a b : Nat} (h1 : a ≤ json.length) (h2 : b ≤ json.length) :
    replace json new a b = .ok (json.take a ++ new ++ json.drop b) := by
  unfold replace
  have e1 : slice json 0 a = .ok (json.take a) := by
    have := slice_ok (a := json) (lo := 0) (hi := a) (Nat.zero_le _) h1
    simpa using this
  have e2 : slice json b json.length = .ok (json.drop b) := by
    rw [slice_ok h2 (Nat.le_refl _), List.take_of_length_le (by simp)]
  simp [e1, e2]

/-- `replace` on a split text. -/
theorem replace_split {json A m B new : Bytes} {a b : Int} (hj : json = A ++ (m ++ B))
    (ha : a = A.length) (hb : b = A.length + m.length) :
    replace json new a b = .ok (A ++ (new ++ B)) := by
  subst hj ha hb
  rw [show (A.length : Int) + m.length = ((A.length + m.length : Nat) : Int) by omega,
    replace_ok (by simp) (by simp)]
  simp [List.drop_append]

end Jin
