import Verif.Proof.SkipCore
/-!
# Proof.Find — byte positions of the values and keys of a tree inside its text
-/

namespace Jin
open Spec

/-! ### First bytes -/

/-- First byte of the text of a value. -/
def Spec.Json.first (v : Json) : UInt8 := v.render.headD 0

theorem render_first {v : Json} (h : v.wf) : v.render = v.first :: v.render.tail := by
  unfold Spec.Json.first
  have := render_ne_nil h
  cases hr : v.render with
  | nil => exact absurd hr this
  | cons c t => rfl

@[simp] theorem first_str (t : Text) : (Json.str t).first = 34 := by simp [Json.first]
@[simp] theorem first_arr (g es) : (Json.arr g es).first = 91 := by simp [Json.first, render_arr]
@[simp] theorem first_obj (g es) : (Json.obj g es).first = 123 := by simp [Json.first, render_obj]

theorem first_lit {t : Text} (h : (Json.lit t).wf) : tokByte (Json.lit t).first := by
  cases t with
  | nil => exact absurd h (by simp [Json.wf])
  | cons c t => simp only [Json.wf, List.all_cons, Bool.and_eq_true] at h; simpa [Json.first] using h.2.1

theorem first_ns {v : Json} (h : v.wf) : isWs v.first = false := by
  cases v with
  | lit t => exact (tokByte_ne (first_lit h)).1
  | str t => rw [first_str]; decide
  | arr g es => rw [first_arr]; decide
  | obj g ms => rw [first_obj]; decide

theorem first_container {v : Json} (h : v.wf) :
    v.isContainer ↔ (v.first = 91 ∨ v.first = 123) := by
  cases v with
  | lit t =>
    have := tokByte_ne (first_lit h)
    simp [Json.isContainer, this.2.2.2.2.2.1, this.2.2.2.2.2.2.2.1]
  | str t => simp [Json.isContainer]
  | arr g es => simp [Json.isContainer]
  | obj g ms => simp [Json.isContainer]

theorem Seg.first {json : Bytes} {i : Nat} {v : Json} (hv : v.wf) (h : Seg json i v.render) :
    json[i]? = some v.first := by
  rw [render_first hv, seg_cons] at h; exact h.1

/-! ### Positions -/

/-- Text length of an element without the comma. -/
def elemLen (e : Elem Json) : Nat := e.l.length + e.v.render.length + e.r.length

/-- Text length of a member without the comma. -/
def memberLen (m : Member Json) : Nat :=
  m.l.length + m.key.length + m.m.length + m.l2.length + m.v.render.length + m.r.length + 3

/-- Offset of the `n`-th element in the text of the elements. -/
def elemAt : List (Elem Json) → Nat → Option (Nat × Json)
  | [], _ => none
  | e :: _, 0 => some (e.l.length, e.v)
  | e :: es, n + 1 => (elemAt es n).map fun (p, v) => (elemLen e + 1 + p, v)

/-- Offsets of the first byte of the key and of the value of the first member with
key `k`. -/
def memberAt : List (Member Json) → Text → Option (Nat × Nat × Json)
  | [], _ => none
  | m :: ms, k =>
    if m.key = k then
      some (m.l.length + 1, m.l.length + m.key.length + m.m.length + m.l2.length + 3, m.v)
    else (memberAt ms k).map fun (kp, p, v) => (memberLen m + 1 + kp, memberLen m + 1 + p, v)

/-- Where a child is: offset of its first byte, the child, offset of its key. -/
structure Found where
  pos : Nat
  val : Json
  key : Option Nat

/-- Move a `Found` by `n` bytes. -/
def Found.shift (n : Nat) (f : Found) : Found := ⟨n + f.pos, f.val, f.key.map (n + ·)⟩

/-- One path step. -/
def childAt (j : Json) (p : Text) : Option Found :=
  match j with
  | .arr _ es => ((readIndex p).bind (elemAt es)).map fun (o, v) => ⟨1 + o, v, none⟩
  | .obj _ ms => (memberAt ms p).map fun (kp, o, v) => ⟨1 + o, v, some (1 + kp)⟩
  | _ => none

/-- A whole path. -/
def findAt (j : Json) : List Text → Option Found
  | [] => some ⟨0, j, none⟩
  | p :: ps =>
    match childAt j p with
    | none => none
    | some f => if ps.isEmpty then some f else (findAt f.val ps).map (Found.shift f.pos)

theorem elemAt_eq (es : List (Elem Json)) (n : Nat) : (elemAt es n).map Prod.snd = es[n]?.map Elem.v := by
  induction es generalizing n with
  | nil => simp [elemAt]
  | cons e es ih =>
    cases n with
    | zero => simp [elemAt]
    | succ n => simp only [elemAt, Option.map_map, List.getElem?_cons_succ, ← ih n]; rfl

theorem memberAt_eq (ms : List (Member Json)) (k : Text) :
    (memberAt ms k).map (fun x => x.2.2) = (memberIdx ms k).bind fun n => ms[n]?.map Member.v := by
  induction ms with
  | nil => simp [memberAt, memberIdx]
  | cons m ms ih =>
    simp only [memberAt, memberIdx, List.findIdx?_cons]
    by_cases h : m.key = k
    · simp [h]
    · have h' : (m.key == k) = false := by simpa using h
      simp only [h, if_false, h', Bool.false_eq_true, Option.map_map]
      unfold memberIdx at ih
      rw [show ((fun x : Nat × Nat × Json => x.2.2) ∘ fun x : Nat × Nat × Json =>
        (memberLen m + 1 + x.1, memberLen m + 1 + x.2.1, x.2.2)) = (fun x => x.2.2) from rfl]
      rw [ih]
      cases hx : List.findIdx? (fun m => m.key == k) ms <;> simp

theorem childAt_eq (j : Json) (p : Text) : (childAt j p).map Found.val = j.child? p := by
  cases j with
  | lit t => rfl
  | str t => rfl
  | arr g es =>
    simp only [childAt, Json.child?, Option.map_map]
    cases readIndex p with
    | none => rfl
    | some n => simp only [Option.bind_some, ← elemAt_eq]; rfl
  | obj g ms =>
    simp only [childAt, Json.child?, Option.map_map, ← memberAt_eq]; rfl

theorem findAt_eq (path : List Text) : ∀ j : Json, (findAt j path).map Found.val = j.get? path := by
  induction path with
  | nil => intro j; rfl
  | cons p ps ih =>
    intro j
    rw [Json.get?, ← childAt_eq, findAt]
    cases childAt j p with
    | none => rfl
    | some f =>
      simp only [Option.map_some, Option.bind_some]
      split
      · rename_i h
        rw [List.isEmpty_iff] at h
        subst h; rfl
      · rw [Option.map_map, ← ih]; rfl

/-- A path leads somewhere exactly when there is a position for it. -/
theorem findAt_of_get {j w : Json} {path : List Text} (h : j.get? path = some w) :
    ∃ f, findAt j path = some f ∧ f.val = w := by
  rw [← findAt_eq] at h
  simpa using h

/-! ### The text at a position -/

/-- A byte that may follow a value inside a container. -/
def Follows (c : UInt8) : Prop := isWs c ∨ c = 44 ∨ c = 93 ∨ c = 125

theorem renderElems_cons (e : Elem Json) (es) :
    renderElems (e :: es) = e.l ++ (e.v.render ++ (e.r ++
      (if es.isEmpty then [] else 44 :: renderElems es))) := by
  cases e; rw [renderElems]

theorem renderMembers_cons (m : Member Json) (ms) :
    renderMembers (m :: ms) = m.l ++ ([34] ++ (m.key ++ ([34] ++ (m.m ++ ([58] ++ (m.l2 ++ (m.v.render ++ (m.r ++
      (if ms.isEmpty then [] else 44 :: renderMembers ms))))))))) := by
  cases m; simp [renderMembers]

theorem wfElems_cons (e : Elem Json) (es) :
    wfElems (e :: es) = true ↔ Ws e.l ∧ e.v.wf ∧ Ws e.r ∧ wfElems es := by
  cases e; simp [wfElems, and_assoc]

theorem wfMembers_cons (m : Member Json) (ms) :
    wfMembers (m :: ms) = true ↔
      Ws m.l ∧ strOk m.key ∧ Ws m.m ∧ Ws m.l2 ∧ m.v.wf ∧ Ws m.r ∧ wfMembers ms := by
  cases m; simp [wfMembers, and_assoc]

theorem wf_arr {g es} : (Json.arr g es).wf = true ↔ Ws g ∧ wfElems es := by simp [Json.wf]
theorem wf_obj {g ms} : (Json.obj g ms).wf = true ↔ Ws g ∧ wfMembers ms := by simp [Json.wf]

/-- The first byte of `r ++ rest` when `r` is whitespace and `rest` starts with `c`. -/
theorem follows_ws {json r : Bytes} {i : Nat} {c : UInt8} (hr : Ws r) (h : Seg json i r)
    (hc : json[i + r.length]? = some c) (hf : Follows c) : ∃ c, json[i]? = some c ∧ Follows c := by
  cases r with
  | nil => exact ⟨c, by simpa using hc, hf⟩
  | cons b r =>
    rw [seg_cons] at h
    rw [ws_cons, Bool.and_eq_true] at hr
    exact ⟨b, h.1, Or.inl hr.1⟩

theorem elem_seg {es : List (Elem Json)} {n o : Nat} {v : Json} {json : Bytes} {i : Nat}
    (hw : wfElems es) (hs : Seg json i (renderElems es ++ [93])) (h : elemAt es n = some (o, v)) :
    Seg json (i + o) v.render ∧ v.wf ∧ ∃ c, json[i + o + v.render.length]? = some c ∧ Follows c := by
  induction es generalizing n o i with
  | nil => simp [elemAt] at h
  | cons e es ih =>
    rw [renderElems_cons] at hs
    simp only [List.append_assoc] at hs
    rw [seg_append, seg_append, seg_append] at hs
    obtain ⟨h1, h2, h3, h4⟩ := hs
    rw [wfElems_cons] at hw
    obtain ⟨w1, w2, w3, w4⟩ := hw
    cases n with
    | zero =>
      simp only [elemAt, Option.some.injEq, Prod.mk.injEq] at h
      obtain ⟨rfl, rfl⟩ := h
      refine ⟨h2, w2, ?_⟩
      by_cases he : es.isEmpty
      · simp only [he, if_true, List.nil_append, seg_cons] at h4
        exact follows_ws w3 h3 h4.1 (Or.inr (Or.inr (Or.inl rfl)))
      · simp only [he, Bool.false_eq_true, if_false, List.cons_append, seg_cons] at h4
        exact follows_ws w3 h3 h4.1 (Or.inr (Or.inl rfl))
    | succ n =>
      by_cases he : es.isEmpty
      · rw [List.isEmpty_iff] at he; subst he; simp [elemAt] at h
      · simp only [he, Bool.false_eq_true, if_false, List.cons_append, seg_cons] at h4
        simp only [elemAt, Option.map_eq_some_iff, Prod.exists, Prod.mk.injEq] at h
        obtain ⟨o', v', h5, rfl, rfl⟩ := h
        have := ih w4 h4.2 h5
        unfold elemLen
        rw [show i + (e.l.length + e.v.render.length + e.r.length + 1 + o') =
          i + e.l.length + e.v.render.length + e.r.length + 1 + o' by omega]
        exact this

theorem member_seg {ms : List (Member Json)} {k : Text} {kp o : Nat} {v : Json} {json : Bytes} {i : Nat}
    (hw : wfMembers ms) (hs : Seg json i (renderMembers ms ++ [125])) (h : memberAt ms k = some (kp, o, v)) :
    Seg json (i + o) v.render ∧ v.wf ∧ (∃ c, json[i + o + v.render.length]? = some c ∧ Follows c) ∧
      Seg json (i + kp) (k ++ [34]) ∧ strOk k ∧ 0 < kp ∧ json[i + kp - 1]? = some 34 := by
  induction ms generalizing kp o i with
  | nil => simp [memberAt] at h
  | cons m ms ih =>
    rw [renderMembers_cons] at hs
    simp only [List.append_assoc] at hs
    rw [seg_append, seg_append, seg_append, seg_append, seg_append, seg_append, seg_append,
      seg_append, seg_append] at hs
    obtain ⟨h1, h2, h3, h4, h5, h6, h7, h8, h9, h10⟩ := hs
    simp only [List.length_singleton] at h2 h3 h4 h5 h6 h7 h8 h9 h10
    rw [wfMembers_cons] at hw
    obtain ⟨w1, w2, w3, w4, w5, w6, w7⟩ := hw
    rw [memberAt] at h
    by_cases hk : m.key = k
    · simp only [hk, if_true, Option.some.injEq, Prod.mk.injEq] at h
      obtain ⟨rfl, rfl, rfl⟩ := h
      have e1 : i + (m.l.length + k.length + m.m.length + m.l2.length + 3) =
          i + m.l.length + 1 + m.key.length + 1 + m.m.length + 1 + m.l2.length := by
        rw [hk]; omega
      rw [e1]
      refine ⟨h8, w5, ?_, ?_, hk ▸ w2, by omega, ?_⟩
      · by_cases he : ms.isEmpty
        · simp only [he, if_true, List.nil_append, seg_cons] at h10
          exact follows_ws w6 h9 h10.1 (Or.inr (Or.inr (Or.inr rfl)))
        · simp only [he, Bool.false_eq_true, if_false, List.cons_append, seg_cons] at h10
          exact follows_ws w6 h9 h10.1 (Or.inr (Or.inl rfl))
      · rw [← hk, seg_append]
        exact ⟨h3, h4⟩
      · rw [seg_cons] at h2
        simpa using h2.1
    · by_cases he : ms.isEmpty
      · rw [List.isEmpty_iff] at he; subst he; simp [memberAt, hk] at h
      · simp only [he, Bool.false_eq_true, if_false, List.cons_append, seg_cons] at h10
        simp only [hk, if_false, Option.map_eq_some_iff, Prod.exists, Prod.mk.injEq] at h
        obtain ⟨kp', o', v', hm, rfl, rfl, rfl⟩ := h
        have := ih w7 h10.2 hm
        have e0 : ∀ x, i + (memberLen m + 1 + x) = i + m.l.length + 1 + m.key.length + 1 + m.m.length + 1 + m.l2.length
            + m.v.render.length + m.r.length + 1 + x := by intro x; unfold memberLen; omega
        rw [e0, e0]
        obtain ⟨a1, a2, a3, a4, a5, a6, a7⟩ := this
        exact ⟨a1, a2, a3, a4, a5, by omega, a7⟩

/-- The text inside the brackets of a container that has an entry. -/
theorem seg_arr {json : Bytes} {i : Nat} {g es} (he : es ≠ []) (h : Seg json i (Json.arr g es).render) :
    json[i]? = some 91 ∧ Seg json (i + 1) (renderElems es ++ [93]) := by
  rw [render_arr, if_neg (by simpa using he), seg_cons] at h; exact h

theorem seg_obj {json : Bytes} {i : Nat} {g ms} (he : ms ≠ []) (h : Seg json i (Json.obj g ms).render) :
    json[i]? = some 123 ∧ Seg json (i + 1) (renderMembers ms ++ [125]) := by
  rw [render_obj, if_neg (by simpa using he), seg_cons] at h; exact h

theorem elemAt_ne {es : List (Elem Json)} {n x} (h : elemAt es n = some x) : es ≠ [] := by
  rintro rfl; simp [elemAt] at h
theorem memberAt_ne {ms : List (Member Json)} {n x} (h : memberAt ms n = some x) : ms ≠ [] := by
  rintro rfl; simp [memberAt] at h

/-- What is known about the position of a child. -/
theorem child_seg {j : Json} {p : Text} {f : Found} {json : Bytes} {i : Nat}
    (hw : j.wf) (hs : Seg json i j.render) (h : childAt j p = some f) :
    Seg json (i + f.pos) f.val.render ∧ f.val.wf ∧ 0 < f.pos ∧
      ∃ c, json[i + f.pos + f.val.render.length]? = some c ∧ Follows c := by
  cases j with
  | lit t => simp [childAt] at h
  | str t => simp [childAt] at h
  | arr g es =>
    simp only [childAt, Option.map_eq_some_iff, Option.bind_eq_some_iff, Prod.exists] at h
    obtain ⟨o, v, ⟨n, _, hn⟩, rfl⟩ := h
    have := elem_seg (wf_arr.1 hw).2 (seg_arr (elemAt_ne hn) hs).2 hn
    simp only [← Nat.add_assoc]
    exact ⟨this.1, this.2.1, by omega, this.2.2⟩
  | obj g ms =>
    simp only [childAt, Option.map_eq_some_iff, Prod.exists] at h
    obtain ⟨kp, o, v, hn, rfl⟩ := h
    have := member_seg (wf_obj.1 hw).2 (seg_obj (memberAt_ne hn) hs).2 hn
    simp only [← Nat.add_assoc]
    exact ⟨this.1, this.2.1, by omega, this.2.2.1⟩

theorem find_seg {path : List Text} (hp : path ≠ []) : ∀ {j : Json} {f : Found} {json : Bytes} {i : Nat},
    j.wf → Seg json i j.render → findAt j path = some f →
    Seg json (i + f.pos) f.val.render ∧ f.val.wf ∧ 0 < f.pos ∧
      ∃ c, json[i + f.pos + f.val.render.length]? = some c ∧ Follows c := by
  induction path with
  | nil => exact absurd rfl hp
  | cons p ps ih =>
    intro j f json i hw hs h
    rw [findAt] at h
    cases hc : childAt j p with
    | none => simp [hc] at h
    | some c =>
      simp only [hc] at h
      obtain ⟨c1, c2, c3, c4⟩ := child_seg hw hs hc
      by_cases he : ps.isEmpty
      · simp only [he, if_true, Option.some.injEq] at h
        subst h; exact ⟨c1, c2, c3, c4⟩
      · simp only [he, Bool.false_eq_true, if_false, Option.map_eq_some_iff] at h
        obtain ⟨f', h', rfl⟩ := h
        have := ih (by simpa using he) c2 c1 h'
        simp only [Found.shift, ← Nat.add_assoc]
        exact ⟨this.1, this.2.1, by omega, this.2.2.2⟩

end Jin
