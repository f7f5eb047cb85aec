import Verif.Proof.Types
import Verif.Props.Iterate
/-!
# Props.Types — C34 and C36 to C39: maps, lengths, emptiness and types
-/

namespace Jin
open Spec

/-! ### C34 -/

/-- The text of the last member with key `k`. -/
def Spec.lastMember (ms : List (Member Json)) (k : Text) : Option Text :=
  ((ms.filter fun m => m.key == k).getLast?).map fun m => m.v.content

theorem lastOf_members (ms : List (Member Json)) (k : Text) :
    lastOf (ms.map fun m => (m.key, m.v.content)) k = lastMember ms k := by
  rw [lastOf, lastMember, List.filter_map, List.getLast?_map, Option.map_map]
  rfl

/-- **C34, exactly**, for objects: with `A` and `B` the text before and after the value, the map
is returned when the path is empty or the byte after the value is `}`; otherwise the result is
an error.  The values are those `IterateKeyValue` sees (see `C31_iterateKV_partial`). -/
theorem C34_object_exact_partial {d : Doc} {p : List Text} {g : Text} {ms : List (Member Json)} (hd : d.wf)
    (h : d.get? p = some (.obj g ms)) (hm : ms ≠ []) : ∃ A B, d.render = A ++ ((Json.obj g ms).render ++ B) ∧
      (∀ f : Json → Json, (d.upd f p).render = A ++ ((f (.obj g ms)).render ++ B)) ∧
      ((p = [] ∨ B.head? = some 125) → ∃ m, GetMap d.render p = .ok (some m) ∧ ∀ k, m.get? k = lastOf (ikSeen ms) k) ∧
      (p ≠ [] → B.head? ≠ some 125 → GetMap d.render p = .err (.badJSON A.length)) := by
  obtain ⟨A, B, h1, h2, hw, h3, h4⟩ := getMap_span hd h rfl (not_root_text hd h rfl (Or.inl (by simpa [Json.size] using hm)))
  refine ⟨A, B, h1, h2, ?_, ?_⟩
  · intro hp
    rw [h4, if_pos (by exact hp), if_pos (by rfl), iterateKV_ok hd h hm, visitLast_fold (fun (m : GoMap) k v => m.set k v)]
    refine ⟨_, rfl, fun k => ?_⟩
    rw [goMap_fold]
    cases lastOf (ikSeen ms) k <;> rfl
  · intro hp hB
    rw [h4, if_neg (by exact fun e => e.elim hp hB)]

/-- **C34** for the root object, when no one-byte value is followed by whitespace. -/
theorem C34_root_object_partial {d : Doc} {g : Text} {ms : List (Member Json)} (hd : d.wf)
    (h : d.root = .obj g ms) (hm : ms ≠ []) (hl : ∀ m ∈ ms, m.loose = false) :
    ∃ m, GetMap d.render [] = .ok (some m) ∧ ∀ k, m.get? k = lastMember ms k := by
  have h : d.get? [] = some (.obj g ms) := by simp [Doc.get?, Json.get?, h]
  obtain ⟨A, B, -, -, h1, -⟩ := C34_object_exact_partial hd h hm
  obtain ⟨m, h2, h3⟩ := h1 (Or.inl rfl)
  obtain ⟨_, -, -, hw, -⟩ := valueStart_ok hd h
  rw [ikSeen_tight (wf_obj.1 hw).2 hl] at h3
  exact ⟨m, h2, fun k => by rw [h3, lastOf_members]⟩

example : ∃ g ms, Sample.doc.root = .obj g ms ∧ ms ≠ [] ∧ (∀ m ∈ ms, m.loose = false) ∧ lastMember ms (str "a") = some (str "2") :=
  ⟨[], Sample.rootMembers, rfl, by decide, by decide +kernel, by decide +kernel⟩

/-- **C34** for an object that is the last thing in the object around it. -/
theorem C34_last_member_partial {d : Doc} {p : List Text} {g : Text} {ms : List (Member Json)} {A B : Text} (hd : d.wf)
    (h : d.get? p = some (.obj g ms)) (hm : ms ≠ []) (hl : ∀ m ∈ ms, m.loose = false)
    (hAB : ∀ f : Json → Json, (d.upd f p).render = A ++ ((f (.obj g ms)).render ++ 125 :: B)) :
    ∃ m, GetMap d.render p = .ok (some m) ∧ ∀ k, m.get? k = lastMember ms k := by
  obtain ⟨A', B', -, h2, h1, -⟩ := C34_object_exact_partial hd h hm
  have hB : B'.head? = some 125 := by
    have e1 := hAB id
    have e2 := hAB fun _ => .lit []
    rw [h2] at e1 e2
    simp only [render_lit, List.nil_append, id] at e1 e2
    have hl : A'.length = A.length := by
      obtain ⟨_, -, -, hw, -⟩ := valueStart_ok hd h
      by_cases hlt : A.length ≤ A'.length
      · by_cases heq : A.length = A'.length
        · exact heq.symm
        · exfalso
          -- replace by a long literal without the opening bracket
          have e3 := hAB fun _ => .lit (List.replicate (A'.length + 1) 0)
          rw [h2] at e3
          simp only [render_lit] at e3
          have a := congrArg (fun l => l[A.length]?) e3
          rw [List.getElem?_append_left (by omega), List.getElem?_append_right (Nat.le_refl _), Nat.sub_self] at a
          have b := congrArg (fun l => l[A.length]?) e1
          rw [List.getElem?_append_left (by omega), List.getElem?_append_right (Nat.le_refl _), Nat.sub_self, render_obj] at b
          rw [b] at a
          rw [List.replicate_succ] at a; simp at a
      · exfalso
        have e3 := hAB fun _ => .lit (List.replicate (A.length + 1) 0)
        rw [h2] at e3
        simp only [render_lit] at e3
        have a := congrArg (fun l => l[A'.length]?) e3
        rw [List.getElem?_append_left (l₁ := A) (by omega), List.getElem?_append_right (Nat.le_refl _), Nat.sub_self] at a
        have b := congrArg (fun l => l[A'.length]?) e1
        rw [List.getElem?_append_left (l₁ := A) (by omega), List.getElem?_append_right (Nat.le_refl _), Nat.sub_self, render_obj] at b
        rw [← b, List.replicate_succ] at a
        simp at a
    have := (List.append_inj e2 hl).2
    rw [this]; rfl
  obtain ⟨m, h3, h4⟩ := h1 (Or.inr hB)
  obtain ⟨_, -, -, hw, -⟩ := valueStart_ok hd h
  rw [ikSeen_tight (wf_obj.1 hw).2 hl] at h4
  exact ⟨m, h3, fun k => by rw [h4, lastOf_members]⟩

example : ∃ g ms A B, Sample.doc.get? Sample.toObj = some (.obj g ms) ∧ ms ≠ [] ∧ (∀ m ∈ ms, m.loose = false) ∧
    ∀ f : Json → Json, (Sample.doc.upd f Sample.toObj).render = A ++ ((f (.obj g ms)).render ++ 125 :: B) := by
  refine ⟨[], Sample.members, str "\n{\"a\": 1, \"b\\\"]\" :[ 10 ,\"x]\\\\\" , {\"k\":null}, [] ],\"a\":2,\"o\":", str " ",
    Sample.get_obj, by decide, by decide +kernel, fun f => ?_⟩
  obtain ⟨f', A, B, h1, h2, h3, h4, h5, -⟩ := doc_around Sample.doc_wf Sample.get_obj
  rw [h5]
  have hA : A.length = (str "\n{\"a\": 1, \"b\\\"]\" :[ 10 ,\"x]\\\\\" , {\"k\":null}, [] ],\"a\":2,\"o\":").length := by
    have : (findAt Sample.doc.root Sample.toObj).map (fun f => Sample.doc.lead.length + f.pos) =
        some (str "\n{\"a\": 1, \"b\\\"]\" :[ 10 ,\"x]\\\\\" , {\"k\":null}, [] ],\"a\":2,\"o\":").length := by decide +kernel
    rw [h1, Option.map_some, Option.some.injEq] at this
    rw [h3, this]
  have h6 : A ++ ((Json.obj [] Sample.members).render ++ B) =
      str "\n{\"a\": 1, \"b\\\"]\" :[ 10 ,\"x]\\\\\" , {\"k\":null}, [] ],\"a\":2,\"o\":" ++ ((Json.obj [] Sample.members).render ++ 125 :: str " ") := by
    rw [← h4]; decide +kernel
  obtain ⟨e1, e2⟩ := List.append_inj h6 hA
  rw [e1, List.append_cancel_left e2]

/-- **C34, exactly**, for arrays. -/
theorem C34_array_exact_partial {d : Doc} {p : List Text} {g : Text} {es : List (Elem Json)} (hd : d.wf)
    (h : d.get? p = some (.arr g es)) (he : es ≠ []) : ∃ A B, d.render = A ++ ((Json.arr g es).render ++ B) ∧
      (∀ f : Json → Json, (d.upd f p).render = A ++ ((f (.arr g es)).render ++ B)) ∧
      ((p = [] ∨ B.head? = some 93) → ∃ m, GetMap d.render p = .ok (some m) ∧
        (∀ j : Nat, m.get? (itoa j) = (es[j]?).map fun e => e.v.content) ∧ ∀ k, (∀ j : Nat, k ≠ itoa j) → m.get? k = none) ∧
      (p ≠ [] → B.head? ≠ some 93 → GetMap d.render p = .err (.badJSON A.length)) := by
  obtain ⟨A, B, h1, h2, hw, h3, h4⟩ := getMap_span hd h rfl (not_root_text hd h rfl (Or.inl (by simpa [Json.size] using he)))
  refine ⟨A, B, h1, h2, ?_, ?_⟩
  · intro hp
    rw [h4, if_pos (by exact hp), if_neg (by simp [Json.kind]), iterateArray_ok hd h he, visit_fold (fun (m : GoMap × Nat) v => (m.1.set (itoa m.2) v, m.2 + 1))]
    refine ⟨_, rfl, fun j => ?_, fun k hk => ?_⟩
    · rw [goMap_index, goMap_fold]
      have := lastOf_index (es.map fun e => e.v.content) 0 j
      rw [Nat.zero_add] at this
      rw [this, List.getElem?_map]
      cases es[j]? <;> rfl
    · rw [goMap_index, goMap_fold, lastOf_other]
      · rfl
      · rintro ⟨a, b⟩ hab e
        have := (List.of_mem_zip hab).1
        rw [List.mem_map] at this
        obtain ⟨i, -, hi⟩ := this
        exact hk i (by rw [← e, ← hi])
  · intro hp hB
    rw [h4, if_neg (by exact fun e => e.elim hp hB)]

example : ∃ g es, Sample.doc.get? Sample.toArr = some (.arr g es) ∧ es ≠ [] := ⟨[], _, Sample.get_arr, by decide⟩

/-- `{"a":{"b":1},"c":2}` -/
def Sample.ab : Doc := ⟨[], .obj [] [mem (s "a") (.obj [] [mem (s "b") (.lit (s "1"))]), mem (s "c") (.lit (s "2"))], []⟩

/-- **C34 fails** for an object that is not the last thing in its container. -/
theorem C34_fails : Sample.ab.wf ∧ Sample.ab.get? [str "a"] = some (.obj [] [Sample.mem (str "b") (.lit (str "1"))]) ∧
    GetMap Sample.ab.render [str "a"] = .err (.badJSON 5) :=
  ⟨by decide +kernel, by decide +kernel, by decide +kernel⟩

/-! ### C36 -/

/-- An array of one element of one byte, followed directly by the closing bracket. -/
def Spec.Json.pinch : Json → Bool
  | .arr _ [e] => e.v.render.length == 1 && e.r.isEmpty
  | _ => false

theorem tiny_pinch (w : Json) : tiny w = w.pinch := by
  cases w with
  | lit t => rfl
  | str t => rfl
  | arr g es => match es with
    | [] => rfl
    | [e] => rfl
    | _ :: _ :: _ => rfl
  | obj g ms => match ms with
    | [] => rfl
    | [m] => simp [tiny, rents, Json.pinch, Entry.text]
    | _ :: _ :: _ => rfl

/-- **C36** for every path but the empty one: `Length` counts the entries. -/
theorem C36_length_path_partial {d : Doc} {p : List Text} {w : Json} (hd : d.wf) (h : d.get? p = some w) (hc : w.isContainer)
    (hp : p ≠ []) : Length d.render p = .ok w.size := by
  rw [length_ok hd h hc, if_neg (fun e => hp e.1)]

/-- **C36** for the whole text, exactly: an array such as `[5]` or `[ 5]` has length 0. -/
theorem C36_length_root_partial {d : Doc} (hd : d.wf) (hc : d.root.isContainer) :
    Length d.render [] = .ok (if d.root.pinch then 0 else d.root.size) := by
  rw [length_ok hd (w := d.root) (by simp [Doc.get?, Json.get?]) hc, tiny_pinch]
  simp

example : Sample.doc.get? Sample.toArr = some (.arr [] Sample.elems) ∧ (Json.arr [] Sample.elems).size = 4 ∧ Sample.toArr ≠ [] ∧
    Sample.doc.root.isContainer ∧ Sample.doc.root.pinch = false ∧ Sample.doc.root.size = 4 :=
  ⟨Sample.get_arr, rfl, by decide, rfl, rfl, rfl⟩

/-- `[5]` -/
def Sample.five : Doc := ⟨[], .arr [] [el (.lit (s "5"))], []⟩

/-- **C36 fails** on `[5]`. -/
theorem C36_fails : ¬ ∀ (d : Doc) (p : List Text) (w : Json), d.wf → d.get? p = some w → w.isContainer → Length d.render p = .ok w.size := by
  intro h
  have := h Sample.five [] (.arr [] [Sample.el (.lit (str "5"))]) (by decide +kernel) (by decide +kernel) rfl
  revert this
  decide +kernel

/-! ### C37 -/

/-- **C37, exactly**, on containers: an array such as `[5]` is called empty too. -/
theorem C37_isEmpty_exact_partial {d : Doc} {p : List Text} {w : Json} (hd : d.wf) (h : d.get? p = some w) (hc : w.isContainer) :
    IsEmpty d.render p = .ok (w.size == 0 || w.pinch) := by
  rw [isEmpty_ok hd h hc, tiny_pinch]

/-- **C37** for containers other than `[5]` and the like. -/
theorem C37_isEmpty_partial {d : Doc} {p : List Text} {w : Json} (hd : d.wf) (h : d.get? p = some w) (hc : w.isContainer)
    (hw : w.pinch = false) : IsEmpty d.render p = .ok (w.size == 0) := by
  rw [C37_isEmpty_exact_partial hd h hc, hw, Bool.or_false]

/-- **C37**: `ObjectExpected` for every other value, except strings that begin with a bracket. -/
theorem C37_scalar_partial {d : Doc} {p : List Text} {w : Json} (hd : d.wf) (h : d.get? p = some w) (hc : w.isContainer = false)
    (hb : p = [] ∨ ∀ raw, w = .str raw → ∀ c, raw.head? = some c → c ≠ 91 ∧ c ≠ 123) :
    IsEmpty d.render p = .err .objectExpected :=
  isEmpty_scalar hd h hc hb

example : Sample.doc.get? [str "b\\\"]", str "3"] = some (.arr [] []) ∧ (Json.arr [] []).isContainer ∧ (Json.arr [] []).pinch = false :=
  ⟨by decide +kernel, rfl, rfl⟩
example : Sample.doc.get? Sample.toStr = some (.str (str "x]\\\\")) ∧
    ∀ raw, Json.str (str "x]\\\\") = .str raw → ∀ c, raw.head? = some c → c ≠ 91 ∧ c ≠ 123 :=
  ⟨Sample.get_str, by
    intro raw e c hc
    injection e with e
    rw [← e, show (str "x]\\\\").head? = some 120 by decide +kernel] at hc
    cases hc
    decide⟩

/-- **C37 fails** on `[5]`, which is not empty. -/
theorem C37_fails : Sample.five.wf ∧ Sample.five.root.size = 1 ∧ IsEmpty Sample.five.render [] = .ok true :=
  ⟨by decide +kernel, rfl, by decide +kernel⟩

/-- `{"a":"[]"}` -/
def Sample.fake : Doc := ⟨[], .obj [] [mem (s "a") (.str (s "[]"))], []⟩

/-- **C37 fails** on the string `"[]"`, which is taken for an empty array. -/
theorem C37_string_fails : Sample.fake.wf ∧ Sample.fake.get? [str "a"] = some (.str (str "[]")) ∧
    IsEmpty Sample.fake.render [str "a"] = .ok true :=
  ⟨by decide +kernel, by decide +kernel, by decide +kernel⟩

/-! ### C38 -/

theorem first_kind {w : Json} (hw : w.wf) : (w.first = 91 ↔ w.kind = .arr) ∧ (w.first = 123 ↔ w.kind = .obj) := by
  cases w with
  | lit t => have := tokByte_ne (first_lit hw); simp [Json.kind, this]
  | str t => rw [first_str]; simp [Json.kind]
  | arr g es => rw [first_arr]; simp [Json.kind]
  | obj g es => rw [first_obj]; simp [Json.kind]

/-- **C38** `IsArray` is true exactly on arrays. -/
theorem C38_isArray {d : Doc} {p : List Text} {w : Json} (hd : d.wf) (h : d.get? p = some w) :
    IsArray d.render p = .ok (w.kind == .arr) := by
  obtain ⟨i, -, hw, ht⟩ := typeControl_ok hd h [91] true
  rw [IsArray, ht]
  have := (first_kind hw).1
  by_cases e : w.first = 91
  · simp [Out.map, e, this.1 e]
  · have : ¬ w.kind = .arr := fun h => e (this.2 h)
    simp [Out.map, e, this]

/-- **C38** `IsValue` is true exactly on scalars. -/
theorem C38_isValue {d : Doc} {p : List Text} {w : Json} (hd : d.wf) (h : d.get? p = some w) :
    IsValue d.render p = .ok (w.kind == .scalar) := by
  obtain ⟨i, -, hw, ht⟩ := typeControl_ok hd h [91, 123] false
  rw [IsValue, ht]
  obtain ⟨f1, f2⟩ := first_kind hw
  by_cases e : w.first = 91
  · simp [Out.map, e, f1.1 e]
  · by_cases e2 : w.first = 123
    · simp [Out.map, e2, f2.1 e2]
    · have h1 : ¬ w.kind = .arr := fun h => e (f1.2 h)
      have h2 : ¬ w.kind = .obj := fun h => e2 (f2.2 h)
      have : w.kind = .scalar := by cases hk : w.kind <;> simp_all
      simp [Out.map, e, e2, this]

/-- **C38, exactly**: `IsObject` is true on objects and on arrays. -/
theorem C38_isObject_partial {d : Doc} {p : List Text} {w : Json} (hd : d.wf) (h : d.get? p = some w) :
    IsObject d.render p = .ok (w.kind == .obj || w.kind == .arr) := by
  obtain ⟨i, -, hw, ht⟩ := typeControl_ok hd h [91, 123] true
  rw [IsObject, ht]
  obtain ⟨f1, f2⟩ := first_kind hw
  by_cases e : w.first = 91
  · simp [Out.map, e, f1.1 e]
  · by_cases e2 : w.first = 123
    · simp [Out.map, e2, f2.1 e2]
    · have h1 : ¬ w.kind = .arr := fun h => e (f1.2 h)
      have h2 : ¬ w.kind = .obj := fun h => e2 (f2.2 h)
      simp [Out.map, e, e2, h1, h2]

example : Sample.doc.get? Sample.toObj = some (.obj [] Sample.members) ∧ (Json.obj [] Sample.members).kind = .obj ∧
    IsObject Sample.doc.render Sample.toObj = .ok true ∧ IsArray Sample.doc.render Sample.toObj = .ok false ∧
    IsValue Sample.doc.render Sample.toStr = .ok true := by
  refine ⟨Sample.get_obj, rfl, ?_, ?_, ?_⟩ <;> decide +kernel

/-- **C38 fails**: `IsObject` is true on the array `[5]`. -/
theorem C38_fails : Sample.five.root.kind = .arr ∧ IsObject Sample.five.render [] = .ok true := ⟨rfl, by decide +kernel⟩

/-! ### C39 -/

/-- **C39** for containers and strings. -/
theorem C39_getType_bracket {d : Doc} {p : List Text} {w : Json} (hd : d.wf) (h : d.get? p = some w) (isFloat : Bytes → Bool) :
    (w.kind = .arr → GetType isFloat d.render p = .ok .array) ∧ (w.kind = .obj → GetType isFloat d.render p = .ok .object) ∧
      (∀ raw, w = .str raw → GetType isFloat d.render p = .ok .string) := by
  rw [getType_ok hd h]
  cases w <;> simp [Json.kind]

/-- **C39** for literals at a path: `true` and `false` are booleans, `null` is null, what `ParseInt`
or `ParseFloat` accepts is a number; anything else is called a string. -/
theorem C39_getType_literal_partial {d : Doc} {p : List Text} {t : Text} (hd : d.wf) (h : d.get? p = some (.lit t)) (hp : p ≠ [])
    (isFloat : Bytes → Bool) :
    GetType isFloat d.render p = .ok (
      if t = bTrue ∨ t = bFalse then .boolean else if t = bNull then .null
      else if (parseIntBits 64 t).isSome ∨ isFloat t then .number else .string) := by
  rw [getType_ok hd h]
  simp only [typeText, if_neg hp]

example : Sample.doc.get? Sample.toTen = some (.lit (str "10")) ∧ Sample.toTen ≠ [] ∧
    GetType (fun _ => false) Sample.doc.render Sample.toTen = .ok .number ∧
    GetType (fun _ => false) Sample.doc.render Sample.toTrue = .ok .boolean :=
  ⟨Sample.get_ten, by decide, by decide +kernel, by decide +kernel⟩

/-- **C39 fails** for a scalar text with whitespace around it: ` true` is called a string. -/
theorem C39_root_fails : (⟨str " ", .lit bTrue, []⟩ : Doc).wf ∧
    GetType (fun _ => false) (⟨str " ", .lit bTrue, []⟩ : Doc).render [] = .ok .string :=
  ⟨by decide +kernel, by decide +kernel⟩

end Jin
