import Verif.Proof.Reach
/-!
# Proof.Layout — the text of a container, entry by entry
-/

namespace Jin
open Spec

/-- The text of an entry with the whitespace around it. -/
structure Ent where
  l : Text
  x : Text
  r : Text

/-- `"key" m : l2 value`. -/
def memText (m : Member Json) : Text := 34 :: (m.key ++ (34 :: (m.m ++ (58 :: (m.l2 ++ m.v.render)))))

def elemEnt (e : Elem Json) : Ent := ⟨e.l, e.v.render, e.r⟩
def memEnt (m : Member Json) : Ent := ⟨m.l, memText m, m.r⟩

/-- Comma-separated entries. -/
def renderEnt : List Ent → Text
  | [] => []
  | e :: es => e.l ++ (e.x ++ (e.r ++ (if es.isEmpty then [] else 44 :: renderEnt es)))

/-- What comes before the next entry. -/
def sepEnt (xs : List Ent) : Text := if xs.isEmpty then [] else renderEnt xs ++ [44]
theorem sepEnt_nil : sepEnt [] = [] := rfl
theorem sepEnt_ne {xs : List Ent} (h : xs ≠ []) : sepEnt xs = renderEnt xs ++ [44] := by
  rw [sepEnt, if_neg (by simpa using h)]

/-- What comes after an entry. -/
def tailEnt (ys : List Ent) : Text := if ys.isEmpty then [] else 44 :: renderEnt ys

theorem tailEnt_nil : tailEnt [] = [] := rfl
theorem tailEnt_ne {xs : List Ent} (h : xs ≠ []) : tailEnt xs = 44 :: renderEnt xs := by
  rw [tailEnt, if_neg (by simpa using h)]

theorem renderEnt_cons (e : Ent) (es : List Ent) : renderEnt (e :: es) = e.l ++ (e.x ++ (e.r ++ tailEnt es)) := rfl

theorem renderElems_ent (es : List (Elem Json)) : renderElems es = renderEnt (es.map elemEnt) := by
  induction es with
  | nil => rfl
  | cons e es ih => rw [renderElems_cons, List.map_cons, renderEnt_cons, tailEnt, ih]; simp [elemEnt]

theorem renderMembers_ent (ms : List (Member Json)) : renderMembers ms = renderEnt (ms.map memEnt) := by
  induction ms with
  | nil => rfl
  | cons m ms ih => rw [renderMembers_cons, List.map_cons, renderEnt_cons, tailEnt, ih]; simp [memEnt, memText]

theorem renderEnt_split (xs : List Ent) (e : Ent) (ys : List Ent) :
    renderEnt (xs ++ e :: ys) = sepEnt xs ++ (e.l ++ (e.x ++ (e.r ++ tailEnt ys))) := by
  induction xs with
  | nil => rfl
  | cons x xs ih =>
    rw [List.cons_append, renderEnt_cons, tailEnt_ne (by simp), ih, sepEnt_ne (xs := x :: xs) (by simp), renderEnt_cons]
    by_cases h : xs = []
    · simp [h, sepEnt_nil, tailEnt_nil]
    · simp [sepEnt_ne h, tailEnt_ne h]

theorem renderEnt_append {xs ys : List Ent} (hx : xs ≠ []) : renderEnt (xs ++ ys) = renderEnt xs ++ tailEnt ys := by
  cases ys with
  | nil => simp [tailEnt]
  | cons y ys =>
    rw [renderEnt_split, sepEnt_ne hx, tailEnt_ne (xs := y :: ys) (by simp), renderEnt_cons]
    simp

/-- The entries of a container. -/
def ents : Json → List Ent
  | .arr _ es => es.map elemEnt
  | .obj _ ms => ms.map memEnt
  | _ => []

def gapOf : Json → Text
  | .arr g _ => g
  | .obj g _ => g
  | _ => []

/-- The brackets. -/
def opnOf : Json → UInt8
  | .arr _ _ => 91
  | _ => 123
def clsOf : Json → UInt8
  | .arr _ _ => 93
  | _ => 125

/-- The text between the brackets. -/
def inner (v : Json) : Text := if (ents v).isEmpty then gapOf v else renderEnt (ents v)

theorem render_container {v : Json} (h : v.isContainer) : v.render = opnOf v :: (inner v ++ [clsOf v]) := by
  cases v with
  | lit t => simp [Json.isContainer] at h
  | str t => simp [Json.isContainer] at h
  | arr g es => rw [render_arr, renderElems_ent]; simp [inner, ents, gapOf, opnOf, clsOf]
  | obj g ms => rw [render_obj, renderMembers_ent]; simp [inner, ents, gapOf, opnOf, clsOf]

theorem opn_cls {v : Json} : (opnOf v = 91 ∨ opnOf v = 123) ∧ opnOf v + 2 = clsOf v ∧ (clsOf v = 93 ∨ clsOf v = 125) := by
  cases v <;> simp [opnOf, clsOf] <;> decide

/-- What well-formedness says about the entries. -/
theorem ents_wf {v : Json} (h : v.wf) : Ws (gapOf v) ∧ ∀ e ∈ ents v, Ws e.l ∧ Ws e.r ∧ e.x ≠ [] := by
  cases v with
  | lit t => simp [gapOf, ents, Ws]
  | str t => simp [gapOf, ents, Ws]
  | arr g es =>
    rw [wf_arr, wfElems_iff] at h
    refine ⟨h.1, ?_⟩
    intro e he
    simp only [ents, List.mem_map] at he
    obtain ⟨a, ha, rfl⟩ := he
    exact ⟨(h.2 a ha).1, (h.2 a ha).2.2, render_ne_nil (h.2 a ha).2.1⟩
  | obj g ms =>
    rw [wf_obj, wfMembers_iff] at h
    refine ⟨h.1, ?_⟩
    intro e he
    simp only [ents, List.mem_map] at he
    obtain ⟨a, ha, rfl⟩ := he
    exact ⟨(h.2 a ha).1, (h.2 a ha).2.2.2.2.2, by simp [memEnt, memText]⟩

/-! ### Positions -/

theorem elemAt_split (xs : List (Elem Json)) (e : Elem Json) (ys : List (Elem Json)) :
    elemAt (xs ++ e :: ys) xs.length = some ((sepEnt (xs.map elemEnt)).length + e.l.length, e.v) := by
  induction xs with
  | nil => simp [elemAt, sepEnt]
  | cons x xs ih =>
    rw [List.cons_append, List.length_cons, elemAt, ih]
    simp only [Option.map_some, sepEnt, List.map_cons, List.isEmpty_cons, Bool.false_eq_true, if_false, renderEnt_cons,
      tailEnt]
    by_cases h : xs.isEmpty
    · simp [h, elemLen, elemEnt]; omega
    · simp [h, elemLen, elemEnt]; omega

theorem memLen_ent (m : Member Json) : memberLen m = (memEnt m).l.length + (memEnt m).x.length + (memEnt m).r.length := by
  simp [memberLen, memEnt, memText]; omega

theorem memberAt_split (xs : List (Member Json)) (m : Member Json) (ys : List (Member Json)) (h : ∀ x ∈ xs, x.key ≠ m.key) :
    memberAt (xs ++ m :: ys) m.key = some ((sepEnt (xs.map memEnt)).length + m.l.length + 1,
      (sepEnt (xs.map memEnt)).length + m.l.length + (m.key.length + m.m.length + m.l2.length + 3), m.v) := by
  induction xs with
  | nil => simp [memberAt, sepEnt]; omega
  | cons x xs ih =>
    rw [List.cons_append, memberAt, if_neg (h x (by simp)), ih (fun y hy => h y (by simp [hy])), Option.map_some]
    simp only [sepEnt, List.map_cons, List.isEmpty_cons, Bool.false_eq_true, if_false, renderEnt_cons, tailEnt, memLen_ent]
    by_cases hx : xs.isEmpty
    · simp [hx]; omega
    · simp [hx]; omega

theorem memberIdx_split {ms : List (Member Json)} {k : Text} {n : Nat} (h : memberIdx ms k = some n) :
    ∃ xs m ys, ms = xs ++ m :: ys ∧ xs.length = n ∧ m.key = k ∧ ∀ x ∈ xs, x.key ≠ k := by
  unfold memberIdx at h
  rw [List.findIdx?_eq_some_iff_getElem] at h
  obtain ⟨hn, h1, h2⟩ := h
  refine ⟨ms.take n, ms[n], ms.drop (n + 1), ?_, by simp; omega, by simpa using h1, ?_⟩
  · rw [List.getElem_cons_drop, List.take_append_drop]
  · intro x hx
    rw [List.mem_take_iff_getElem] at hx
    obtain ⟨i, hi, rfl⟩ := hx
    have := h2 i (by omega)
    simpa using this

theorem memberIdx_split' {xs : List (Member Json)} {m : Member Json} {ys : List (Member Json)} (h : ∀ x ∈ xs, x.key ≠ m.key) :
    memberIdx (xs ++ m :: ys) m.key = some xs.length := by
  unfold memberIdx
  rw [List.findIdx?_append, List.findIdx?_eq_none_iff.2 (by intro x hx; simpa using h x hx)]
  simp [List.findIdx?_cons]

/-- Where an entry is. -/
theorem child_ent {w : Json} {q : Text} {n : Nat} (h : w.slot? q = some n) :
    ∃ xs e ys f, ents w = xs ++ e :: ys ∧ xs.length = n ∧ childAt w q = some f ∧ valAt w n = some f.val ∧
      f.pos + f.val.render.length = 1 + (sepEnt xs).length + e.l.length + e.x.length ∧
      (f.key = none ∧ w.kind = .arr ∧ f.pos = 1 + (sepEnt xs).length + e.l.length ∨
       f.key = some (1 + (sepEnt xs).length + e.l.length + 1) ∧ w.kind = .obj) := by
  cases w with
  | lit t => simp [Json.slot?] at h
  | str t => simp [Json.slot?] at h
  | arr g es =>
    simp only [Json.slot?, Option.filter_eq_some_iff, decide_eq_true_eq] at h
    obtain ⟨h1, h2⟩ := h
    have hs : es = es.take n ++ es[n] :: es.drop (n + 1) := by
      rw [List.getElem_cons_drop, List.take_append_drop]
    have hl : (es.take n).length = n := by simp; omega
    have he := elemAt_split (es.take n) es[n] (es.drop (n + 1))
    rw [← hs, hl] at he
    refine ⟨(es.take n).map elemEnt, elemEnt es[n], (es.drop (n + 1)).map elemEnt,
      ⟨1 + ((sepEnt ((es.take n).map elemEnt)).length + es[n].l.length), es[n].v, none⟩, ?_, by simpa using hl, ?_, ?_, ?_, ?_⟩
    rotate_left
    · simp only [childAt, h1, Option.bind_some, he, Option.map_some]
    · simp [valAt, h2]
    · simp [elemEnt]; omega
    · left; refine ⟨rfl, rfl, ?_⟩; simp [elemEnt]; omega
    · have := congrArg (List.map elemEnt) hs
      rw [List.map_append, List.map_cons] at this
      exact this
  | obj g ms =>
    simp only [Json.slot?] at h
    obtain ⟨xs, m, ys, hs, hl, hk, hx⟩ := memberIdx_split h
    subst hk hs hl
    have hm := memberAt_split xs m ys hx
    refine ⟨xs.map memEnt, memEnt m, ys.map memEnt,
      ⟨1 + ((sepEnt (xs.map memEnt)).length + m.l.length + (m.key.length + m.m.length + m.l2.length + 3)), m.v,
        some (1 + ((sepEnt (xs.map memEnt)).length + m.l.length + 1))⟩, by simp [ents], by simp, ?_, ?_, ?_, ?_⟩
    · simp only [childAt, hm, Option.map_some]
    · simp [valAt]
    · simp [memEnt, memText]; omega
    · right; refine ⟨?_, rfl⟩; simp [memEnt]; omega

theorem slot_of_child {w : Json} {q : Text} {c : Json} (h : w.child? q = some c) : ∃ n, w.slot? q = some n ∧ valAt w n = some c :=
  child_some h

/-- Position along a path, last step split off. -/
theorem findAt_snoc (p : List Text) (q : Text) : ∀ (j : Json), findAt j (p ++ [q]) =
    (findAt j p).bind fun f => (childAt f.val q).map (Found.shift f.pos) := by
  induction p with
  | nil =>
    intro j
    simp only [List.nil_append, findAt, Option.bind_some]
    cases childAt j q with
    | none => rfl
    | some f => simp [Found.shift]
  | cons x p ih =>
    intro j
    rw [List.cons_append, findAt, findAt]
    cases hc : childAt j x with
    | none => rfl
    | some c =>
      simp only
      rw [if_neg (by simp), ih]
      by_cases hp : p.isEmpty
      · rw [List.isEmpty_iff] at hp; subst hp
        simp only [findAt, Option.bind_some, List.isEmpty_nil, if_true, Option.map_map]
        cases childAt c.val q with
        | none => rfl
        | some f => simp [Found.shift]
      · rw [if_neg (by simpa using hp)]
        cases findAt c.val p with
        | none => rfl
        | some f =>
          simp only [Option.bind_some, Option.map_map, Option.map_some, Found.shift]
          cases childAt f.val q with
          | none => rfl
          | some f' =>
            simp only [Option.map_some, Function.comp, Found.shift, Option.some.injEq, Found.mk.injEq, Nat.add_assoc, true_and]
            cases f'.key <;> simp

end Jin
