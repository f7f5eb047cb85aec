import Verif.Model.Make
import Verif.Props.Errors
/-!
# Props.Make — C45, C47, C48, C59
-/

namespace Jin

/-! ### C45 -/

/-- **C45 (partial)** Every `Make` function returns the empty container on a *nil* slice or
map.  Missing: an empty non-nil slice, for which the property is false (`C45_fails`). -/
theorem C45_make_nil_partial {F : Type} (fl : FloatLib F) (isFloat : Bytes → Bool) :
    MakeArray isFloat none = str "[]" ∧ MakeArrayString isFloat none = str "[]" ∧ MakeArrayInt none = str "[]" ∧
    MakeArrayBool none = str "[]" ∧ MakeArrayFloat fl none = .ok (str "[]") ∧ MakeArrayBytes none = str "[]" ∧
    MakeJson isFloat none [] = str "{}" ∧ MakeJsonString isFloat none [] = str "{}" ∧
    MakeJsonWithMap isFloat none = str "{}" ∧ MakeEmptyArray = str "[]" ∧ MakeEmptyJson = str "{}" := by
  have h1 : str "[]" = bArr := by decide +kernel
  have h2 : str "{}" = bObj := by decide +kernel
  rw [h1, h2]
  exact ⟨rfl, rfl, rfl, rfl, rfl, rfl, rfl, rfl, rfl, rfl, rfl⟩

/-- **C45 is false**: on an empty non-nil argument all of them drop the opening bracket and
return a lone closing bracket. -/
theorem C45_fails {F : Type} (fl : FloatLib F) (isFloat : Bytes → Bool) :
    MakeArray isFloat (some []) = str "]" ∧ MakeArrayString isFloat (some []) = str "]" ∧
    MakeArrayInt (some []) = str "]" ∧ MakeArrayBool (some []) = str "]" ∧
    MakeArrayFloat fl (some []) = .ok (str "]") ∧ MakeArrayBytes (some []) = str "]" ∧
    MakeJson isFloat (some []) [] = str "}" ∧ MakeJsonString isFloat (some []) [] = str "}" ∧
    MakeJsonWithMap isFloat (some []) = str "}" := by
  have h1 : str "]" = [93] := by decide +kernel
  have h2 : str "}" = [125] := by decide +kernel
  rw [h1, h2]
  exact ⟨rfl, rfl, rfl, rfl, rfl, rfl, rfl, rfl, rfl⟩

/-! ### C47 -/

/-- The texts `MakeArrayFloat` writes correctly: no exponent, and from the third byte on
the text of a non-zero integer. -/
def FloatTextOk (t : Bytes) : Prop := 101 ∉ t ∧ 2 ≤ t.length ∧ ∃ n, atoi (t.drop 2) = some n ∧ n ≠ 0

theorem lastE_none {t : Bytes} (h : 101 ∉ t) : ∀ n, lastE t n = 0
  | 0 => rfl
  | n + 1 => by
    rw [lastE, lastE_none h n]
    split
    · rename_i he
      exact absurd (List.mem_of_getElem? (eq_of_beq he)) h
    · rfl

theorem floatItem_ok {t : Bytes} (h : FloatTextOk t) : floatItem t = .ok t := by
  obtain ⟨h1, h2, n, h3, h4⟩ := h
  unfold floatItem
  rw [lastE_none h1]
  have : slice t 2 (t.length : Int) = .ok (t.drop 2) := by
    unfold slice
    rw [if_pos (by omega)]
    simp only [Out.ok.injEq]
    rw [List.take_of_length_le] <;> simp
  simp only [Int.zero_add, Int.natCast_zero]
  rw [this]
  simp [h3, h4]

/-- **C47 (partial)** `MakeArrayFloat` writes the decimal text of each float when each of
these texts is a `FloatTextOk`.  Missing: all other texts (`C47_fails`). -/
theorem C47_makeArrayFloat_partial {F : Type} (fl : FloatLib F) (xs : List F)
    (h : ∀ x ∈ xs, FloatTextOk (fl.format x)) :
    MakeArrayFloat fl (some xs) = .ok (MakeArrayBytes (some (xs.map fl.format))) := by
  have : floatItems (xs.map fl.format) = .ok (xs.map fl.format) := by
    induction xs with
    | nil => rfl
    | cons x xs ih =>
      rw [List.map_cons, floatItems, floatItem_ok (h x (by simp)), ih (fun y hy => h y (by simp [hy]))]; rfl
  unfold MakeArrayFloat
  dsimp only
  rw [this]; rfl

example : FloatTextOk (str "1.5") ∧ FloatTextOk (str "125") := by
  refine ⟨⟨by decide +kernel, by decide +kernel, 5, by decide +kernel, by decide⟩,
    ⟨by decide +kernel, by decide +kernel, 5, by decide +kernel, by decide⟩⟩

/-- **C47 is false**: whatever the float library is, a float printed as `12.5` (or `-1.5`,
`100`) is dropped, and one printed as a single digit makes the function panic. -/
theorem C47_fails {F : Type} (fl : FloatLib F) (x : F) :
    (fl.format x = str "12.5" ∨ fl.format x = str "-1.5" ∨ fl.format x = str "100" →
      MakeArrayFloat fl (some [x]) = .ok (str "[]")) ∧
    (fl.format x = str "5" → MakeArrayFloat fl (some [x]) = .panic) := by
  have e : str "[]" = bArr := by decide +kernel
  have h1 : floatItem (str "12.5") = .ok [] := by decide +kernel
  have h2 : floatItem (str "-1.5") = .ok [] := by decide +kernel
  have h3 : floatItem (str "100") = .ok [] := by decide +kernel
  have h4 : floatItem (str "5") = .panic := by decide +kernel
  refine ⟨?_, ?_⟩
  · rintro (h | h | h) <;> simp [MakeArrayFloat, h, floatItems, h1, h2, h3, e] <;> rfl
  · intro h; simp [MakeArrayFloat, h, floatItems, h4]

/-! ### C48 -/

/-- The calls of the `Scheme` API that change it. -/
inductive SchemeOp where
  | add (k : Bytes)
  | remove (k : Bytes)
  | save
  | restore

def Scheme.step (s : Scheme) : SchemeOp → Scheme
  | .add k => (s.Add k).1
  | .remove k => (s.Remove k).1
  | .save => s.Save
  | .restore => s.Restore

def Scheme.run (s : Scheme) (ops : List SchemeOp) : Scheme := ops.foldl Scheme.step s

/-- **C48** What each call does to the key list and what it returns. -/
theorem C48_scheme_calls (s : Scheme) (k : Bytes) :
    ((s.Add k).2 = true ↔ k ∉ s.keys) ∧
    (k ∈ s.keys → (s.Add k).1 = s) ∧ (k ∉ s.keys → (s.Add k).1.keys = s.keys ++ [k]) ∧
    ((s.Remove k).2 = true ↔ k ∈ s.keys) ∧
    (∀ x, x ∈ (s.Remove k).1.keys ↔ x ∈ s.keys ∧ x ≠ k) ∧
    (s.Remove k).1.keys.Sublist s.keys ∧
    (s.Add k).1.originalKeys = s.originalKeys ∧ (s.Remove k).1.originalKeys = s.originalKeys := by
  unfold Scheme.Add Scheme.Remove
  by_cases h : k ∈ s.keys
  · simp [h, List.filter_sublist]
  · simp [h, List.filter_sublist]

/-- **C48** After every history, `Restore` gives the keys as they were right after the last
`Save` of that history. -/
theorem C48_restore_last_save (s : Scheme) (before after : List SchemeOp)
    (h : ∀ op ∈ after, op matches .save → False) :
    ((s.run (before ++ [.save] ++ after)).Restore).keys = (s.run before).keys := by
  have key : ∀ (after : List SchemeOp) (t : Scheme), (∀ op ∈ after, op matches .save → False) →
      (t.run after).originalKeys = t.originalKeys := by
    intro after
    induction after with
    | nil => intro t _; rfl
    | cons op ops ih =>
      intro t h
      have h1 := ih (t.step op) (fun o ho => h o (by simp [ho]))
      have h2 := h op (by simp)
      rw [Scheme.run, List.foldl_cons]
      change (Scheme.run (t.step op) ops).originalKeys = _
      rw [h1]
      cases op with
      | add k => exact (C48_scheme_calls t k).2.2.2.2.2.2.1
      | remove k => exact (C48_scheme_calls t k).2.2.2.2.2.2.2
      | save => exact absurd rfl h2
      | restore => rfl
  unfold Scheme.run Scheme.Restore
  rw [List.foldl_append, List.foldl_append]
  exact key after _ h

/-- **C48** Without a `Save`, `Restore` gives the keys of `MakeScheme`. -/
theorem C48_restore_original (keys : List Bytes) (ops : List SchemeOp)
    (h : ∀ op ∈ ops, op matches .save → False) : (((MakeScheme keys).run ops).Restore).keys = keys := by
  have := C48_restore_last_save (MakeScheme keys) [] ops h
  simpa [Scheme.run, Scheme.step, Scheme.Save, MakeScheme] using this

/-- **C48** No history makes a key appear twice. -/
theorem C48_nodup (keys : List Bytes) (hk : keys.Nodup) (ops : List SchemeOp) :
    ((MakeScheme keys).run ops).keys.Nodup := by
  have key : ∀ (ops : List SchemeOp) (s : Scheme), s.keys.Nodup → s.originalKeys.Nodup → (s.run ops).keys.Nodup := by
    intro ops
    induction ops with
    | nil => intro s h _; exact h
    | cons op ops ih =>
      intro s h1 h2
      rw [Scheme.run, List.foldl_cons]
      refine ih (s.step op) ?_ ?_
      · cases op with
        | add k =>
          simp only [Scheme.step, Scheme.Add]
          split
          · exact h1
          · rename_i hc
            rw [List.nodup_append]
            refine ⟨h1, by simp, ?_⟩
            intro a ha b hb
            simp only [List.mem_singleton] at hb
            subst hb
            rintro rfl
            exact hc (by simpa using ha)
        | remove k => exact h1.filter _
        | save => exact h1
        | restore => exact h2
      · cases op with
        | add k => rw [Scheme.step, (C48_scheme_calls s k).2.2.2.2.2.2.1]; exact h2
        | remove k => exact h2
        | save => exact h1
        | restore => exact h2
  exact key ops _ hk hk

example : ((MakeScheme [str "a", str "b"]).run [.add (str "c"), .remove (str "a"), .save, .add (str "d"), .restore]).keys =
    [str "b", str "c"] := by decide +kernel

/-! ### C59 -/

/-- **C59 is false for all 64-bit writers**: they call `strconv` with base 64 and panic, on
every input that gets past the argument checks. -/
theorem C59_base64_panics (json k : Bytes) (n : Int) (u : Nat) (i : Int) (p : List Bytes) (hk : k ≠ []) (hi : 0 ≤ i) :
    AddInt64 json n p = .panic ∧ AddUint json u p = .panic ∧ AddUint64 json u p = .panic ∧
    AddKeyValueInt64 json k n p = .panic ∧ AddKeyValueUint json k u p = .panic ∧ AddKeyValueUint64 json k u p = .panic ∧
    InsertInt64 json i n p = .panic ∧ InsertUint json i u p = .panic ∧ InsertUint64 json i u p = .panic := by
  have h64 : ∀ n : Int, formatInt n 64 = .panic := fun n => rfl
  simp [AddInt64, AddUint, AddUint64, AddKeyValueInt64, AddKeyValueUint, AddKeyValueUint64, InsertInt64, InsertUint,
    InsertUint64, addText, addKV, insertText, h64, Mut.bindOut, hk]
  omega

theorem natDigits_lt {b n : Nat} (h : n < b) : natDigits b n = [digitChar n] := by
  rw [natDigits]; simp [h]

theorem natDigits_ge {b n : Nat} (hb : 2 ≤ b) (h : b ≤ n) : natDigits b n = natDigits b (n / b) ++ [digitChar (n % b)] := by
  conv => lhs; rw [natDigits]
  rw [dif_neg (by omega)]

theorem natDigits_ne (b n : Nat) : natDigits b n ≠ [] := by
  rw [natDigits]; split <;> simp

theorem digitChar_inj : ∀ a b : Fin 32, digitChar a.1 = digitChar b.1 → a = b := by decide

/-- A text read in base 32 stands for at least what it stands for in base 10. -/
theorem natDigits_le (a : Nat) : ∀ b : Nat, natDigits 32 a = natDigits 10 b → b ≤ a := by
  induction a using Nat.strongRecOn with
  | ind a ih =>
    intro b h
    by_cases ha : a < 32
    · rw [natDigits_lt ha] at h
      by_cases hb : b < 10
      · rw [natDigits_lt hb, List.cons.injEq] at h
        have := digitChar_inj ⟨a, ha⟩ ⟨b, by omega⟩ h.1
        simp only [Fin.mk.injEq] at this
        omega
      · rw [natDigits_ge (by omega) (by omega)] at h
        have := congrArg List.length h
        have h2 := List.length_pos_iff.2 (natDigits_ne 10 (b / 10))
        rw [List.length_append, List.length_singleton, List.length_singleton] at this
        omega
    · rw [natDigits_ge (by omega) (by omega)] at h
      by_cases hb : b < 10
      · rw [natDigits_lt hb] at h
        have := congrArg List.length h
        have h2 := List.length_pos_iff.2 (natDigits_ne 32 (a / 32))
        simp at this
        omega
      · rw [natDigits_ge (b := 10) (by omega) (by omega)] at h
        have h3 := List.append_inj' h rfl
        have h4 := ih (a / 32) (by omega) _ h3.1
        have h5 := digitChar_inj ⟨a % 32, by omega⟩ ⟨b % 10, by omega⟩ (by simpa using h3.2)
        simp only [Fin.mk.injEq] at h5
        omega

/-- **C59 is false for the 32-bit writers** from 10 on: the base-32 text they write is not
the decimal text. -/
theorem C59_base32_wrong (n : Int) (h : 10 ≤ n.natAbs) : formatInt n 32 ≠ .ok (itoa n) := by
  intro he
  have : natDigits 32 n.natAbs = natDigits 10 n.natAbs := by
    unfold formatInt itoa at he
    rw [if_neg (by omega)] at he
    split at he <;> simpa using he
  by_cases hn : n.natAbs < 32
  · rw [natDigits_lt hn, natDigits_ge (by omega) h] at this
    have := congrArg List.length this
    have h2 := List.length_pos_iff.2 (natDigits_ne 10 (n.natAbs / 10))
    rw [List.length_append, List.length_singleton, List.length_singleton] at this
    omega
  · rw [natDigits_ge (by omega) (by omega), natDigits_ge (b := 10) (by omega) h] at this
    have := natDigits_le _ _ (List.append_inj' this rfl).1
    omega

/-- **C59 (partial)** The 32-bit writers write the decimal text for one-digit numbers.
Missing: everything else, where the property is false (`C59_base32_wrong`,
`C59_base64_panics`). -/
theorem C59_one_digit_partial (json k : Bytes) (n : Int) (i : Int) (p : List Bytes) (h : n.natAbs < 10) :
    AddInt32 json n p = AddInt json n p ∧ AddKeyValueInt32 json k n p = AddKeyValueInt json k n p ∧
    InsertInt32 json i n p = InsertInt json i n p ∧
    AddUint32 json n.natAbs p = AddInt json n.natAbs p ∧
    AddKeyValueUint32 json k n.natAbs p = AddKeyValueInt json k n.natAbs p ∧
    InsertUint32 json i n.natAbs p = InsertInt json i n.natAbs p := by
  have e : ∀ m : Int, m.natAbs < 10 → formatInt m 32 = .ok (itoa m) := by
    intro m hm
    unfold formatInt itoa
    rw [if_neg (by omega), natDigits_lt (b := 32) (by omega), natDigits_lt hm]
  have e2 := e (n.natAbs : Int) (by omega)
  refine ⟨?_, ?_, ?_, ?_, ?_, ?_⟩
  · rw [AddInt32, e n h]; rfl
  · rw [AddKeyValueInt32, e n h]; rfl
  · rw [InsertInt32, e n h]; rfl
  · rw [AddUint32, e2]; rfl
  · rw [AddKeyValueUint32, e2]; rfl
  · rw [InsertUint32, e2]; rfl

example : AddInt32 (str "[1]") 7 [] = .done (str "[1,7]") none ∧ AddInt32 (str "[1]") 10 [] = .done (str "[1,a]") none := by
  decide +kernel

end Jin
