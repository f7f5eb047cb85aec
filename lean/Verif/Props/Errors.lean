import Verif.Model.Make
/-!
# Props.Errors — C27, C28, C51, C52, C58: errors, on arbitrary bytes
-/

namespace Jin

/-! ### C27 -/

/-- Every mutating function of the byte API (inter_set.go, inter_add.go,
inter_delete.go) as a call with its arguments. -/
inductive Call (F : Type) where
  | set (v : Bytes) (path : List Bytes)
  | setString (v : Bytes) (path : List Bytes)
  | setInt (n : Int) (path : List Bytes)
  | setFloat (x : F) (path : List Bytes)
  | setBool (b : Bool) (path : List Bytes)
  | setKey (k : Bytes) (path : List Bytes)
  | store (k : Bytes) (v : Option Bytes) (path : List Bytes)
  | storeString (k v : Bytes) (path : List Bytes)
  | storeInt (k : Bytes) (n : Int) (path : List Bytes)
  | storeFloat (k : Bytes) (x : F) (path : List Bytes)
  | storeBool (k : Bytes) (b : Bool) (path : List Bytes)
  | delete (path : List Bytes)
  | add (v : Bytes) (path : List Bytes)
  | addString (v : Bytes) (path : List Bytes)
  | addInt (n : Int) (path : List Bytes)
  | addInt32 (n : Int) (path : List Bytes)
  | addInt64 (n : Int) (path : List Bytes)
  | addUint (n : Nat) (path : List Bytes)
  | addUint32 (n : Nat) (path : List Bytes)
  | addUint64 (n : Nat) (path : List Bytes)
  | addFloat (x : F) (path : List Bytes)
  | addBool (b : Bool) (path : List Bytes)
  | addKeyValue (k : Bytes) (v : Option Bytes) (path : List Bytes)
  | addKeyValueString (k v : Bytes) (path : List Bytes)
  | addKeyValueInt (k : Bytes) (n : Int) (path : List Bytes)
  | addKeyValueInt32 (k : Bytes) (n : Int) (path : List Bytes)
  | addKeyValueInt64 (k : Bytes) (n : Int) (path : List Bytes)
  | addKeyValueUint (k : Bytes) (n : Nat) (path : List Bytes)
  | addKeyValueUint32 (k : Bytes) (n : Nat) (path : List Bytes)
  | addKeyValueUint64 (k : Bytes) (n : Nat) (path : List Bytes)
  | addKeyValueFloat (k : Bytes) (x : F) (path : List Bytes)
  | addKeyValueBool (k : Bytes) (b : Bool) (path : List Bytes)
  | insert (i : Int) (v : Bytes) (path : List Bytes)
  | insertString (i : Int) (v : Bytes) (path : List Bytes)
  | insertInt (i n : Int) (path : List Bytes)
  | insertInt32 (i n : Int) (path : List Bytes)
  | insertInt64 (i n : Int) (path : List Bytes)
  | insertUint (i : Int) (n : Nat) (path : List Bytes)
  | insertUint32 (i : Int) (n : Nat) (path : List Bytes)
  | insertUint64 (i : Int) (n : Nat) (path : List Bytes)
  | insertFloat (i : Int) (x : F) (path : List Bytes)
  | insertBool (i : Int) (b : Bool) (path : List Bytes)

/-- What the call returns on a text. -/
def Call.run {F : Type} (fl : FloatLib F) (json : Bytes) : Call F → Mut
  | .set v p => Set json v p
  | .setString v p => SetString fl.accepts json v p
  | .setInt n p => SetInt json n p
  | .setFloat x p => SetFloat fl json x p
  | .setBool b p => SetBool json b p
  | .setKey k p => SetKey json k p
  | .store k v p => Store json k v p
  | .storeString k v p => StoreString fl.accepts json k v p
  | .storeInt k n p => StoreInt json k n p
  | .storeFloat k x p => StoreFloat fl json k x p
  | .storeBool k b p => StoreBool json k b p
  | .delete p => Delete json p
  | .add v p => Add json v p
  | .addString v p => AddString fl.accepts json v p
  | .addInt n p => AddInt json n p
  | .addInt32 n p => AddInt32 json n p
  | .addInt64 n p => AddInt64 json n p
  | .addUint n p => AddUint json n p
  | .addUint32 n p => AddUint32 json n p
  | .addUint64 n p => AddUint64 json n p
  | .addFloat x p => AddFloat fl json x p
  | .addBool b p => AddBool json b p
  | .addKeyValue k v p => AddKeyValue json k v p
  | .addKeyValueString k v p => AddKeyValueString fl.accepts json k v p
  | .addKeyValueInt k n p => AddKeyValueInt json k n p
  | .addKeyValueInt32 k n p => AddKeyValueInt32 json k n p
  | .addKeyValueInt64 k n p => AddKeyValueInt64 json k n p
  | .addKeyValueUint k n p => AddKeyValueUint json k n p
  | .addKeyValueUint32 k n p => AddKeyValueUint32 json k n p
  | .addKeyValueUint64 k n p => AddKeyValueUint64 json k n p
  | .addKeyValueFloat k x p => AddKeyValueFloat fl json k x p
  | .addKeyValueBool k b p => AddKeyValueBool json k b p
  | .insert i v p => Insert json i v p
  | .insertString i v p => InsertString fl.accepts json i v p
  | .insertInt i n p => InsertInt json i n p
  | .insertInt32 i n p => InsertInt32 json i n p
  | .insertInt64 i n p => InsertInt64 json i n p
  | .insertUint i n p => InsertUint json i n p
  | .insertUint32 i n p => InsertUint32 json i n p
  | .insertUint64 i n p => InsertUint64 json i n p
  | .insertFloat i x p => InsertFloat fl json i x p
  | .insertBool i b p => InsertBool json i b p

/-- An error comes with the input bytes. -/
def KeepsInput (json : Bytes) (m : Mut) : Prop := ∀ j e, m = .done j (some e) → j = json

theorem keeps_err (json : Bytes) (e : Option Err) : KeepsInput json (.done json e) := by
  intro j e' h; cases h; rfl

theorem keeps_panic (json : Bytes) : KeepsInput json .panic := by
  intro j e' h; cases h

theorem keeps_replace (json new : Bytes) (a b : Int) (j : Bytes) : KeepsInput j (Mut.ofOut (replace json new a b)) := by
  have : ∀ e, replace json new a b ≠ .err e := by
    intro e h
    unfold replace slice at h
    split at h
    · split at h <;> simp at h
    · simp at h
  intro x e h
  cases hr : replace json new a b with
  | ok v => rw [hr] at h; cases h
  | err e' => exact absurd hr (this e')
  | panic => rw [hr] at h; cases h

theorem keeps_bind {α : Type} (json : Bytes) (x : Out α) (f : α → Mut) (hf : ∀ a, KeepsInput json (f a)) :
    KeepsInput json (Mut.bindOut json x f) := by
  cases x with
  | ok a => exact hf a
  | err e => exact keeps_err _ _
  | panic => exact keeps_panic _

theorem keeps_replaceValue (json v : Bytes) (a b : Nat) : KeepsInput json (replaceValue json v a b) := by
  refine keeps_bind _ _ _ fun q => ?_
  split <;> exact keeps_replace _ _ _ _ _

theorem keeps_set (json v : Bytes) (p : List Bytes) : KeepsInput json (Set json v p) := by
  unfold Set
  split
  · exact keeps_err _ _
  · exact keeps_bind _ _ _ fun _ => keeps_replaceValue _ _ _ _

theorem keeps_setKeyLoop (json k : Bytes) (ks hi i : Nat) : ∀ r,
    forUp hi (setKeyBody json k ks) i () = .ret r → KeepsInput json r := by
  fun_induction forUp hi (setKeyBody json k ks) i () with
  | case1 i _ s _ hb ih => exact ih
  | case2 i _ s _ j hb ih => exact ih
  | case3 i s _ hb => intro r h; cases h
  | case4 i s _ r hb =>
    intro r' h; cases h
    unfold setKeyBody at hb
    split at hb
    · cases hb; exact keeps_panic _
    · split at hb
      · cases hb
      · split at hb
        · cases hb; exact keeps_replace _ _ _ _ _
        · cases hb
  | case5 i s _ => intro r h; cases h

theorem keeps_setKey (json k : Bytes) (p : List Bytes) : KeepsInput json (SetKey json k p) := by
  unfold SetKey
  split
  · exact keeps_err _ _
  · split
    · exact keeps_err _ _
    · split
      · exact keeps_panic _
      · exact keeps_err _ _
      · split
        · refine keeps_bind _ _ _ fun l => ?_
          split
          · exact keeps_panic _
          · split
            · rename_i h; exact keeps_setKeyLoop _ _ _ _ _ _ h
            · exact keeps_err _ _
        · exact keeps_err _ _

theorem keeps_addKeyValue' (json k v : Bytes) (p : List Bytes) : KeepsInput json (addKeyValue json k v p) := by
  unfold addKeyValue
  split
  · exact keeps_err _ _
  · refine keeps_bind _ _ _ fun se => keeps_bind _ _ _ fun b => ?_
    split
    · split
      · exact keeps_replace _ _ _ _ _
      · split
        · exact keeps_panic _
        · exact keeps_err _ _
        · split
          · exact keeps_replace _ _ _ _ _
          · exact keeps_err _ _
    · exact keeps_err _ _

theorem keeps_addKeyValue (json k : Bytes) (v : Option Bytes) (p : List Bytes) :
    KeepsInput json (AddKeyValue json k v p) := by
  cases v <;> exact keeps_addKeyValue' _ _ _ _

theorem keeps_store (json k : Bytes) (v : Option Bytes) (p : List Bytes) : KeepsInput json (Store json k v p) := by
  unfold Store
  split
  · exact keeps_panic _
  · split
    · exact keeps_addKeyValue _ _ _ _
    · exact keeps_err _ _
  · exact keeps_replaceValue _ _ _ _

theorem keeps_add (json v : Bytes) (p : List Bytes) : KeepsInput json (Add json v p) := by
  unfold Add
  split
  · exact keeps_err _ _
  · refine keeps_bind _ _ _ fun se => keeps_bind _ _ _ fun b => ?_
    split
    · split <;> exact keeps_replace _ _ _ _ _
    · exact keeps_err _ _

theorem keeps_insert (json : Bytes) (i : Int) (v : Bytes) (p : List Bytes) : KeepsInput json (Insert json i v p) := by
  unfold Insert
  refine keeps_bind _ _ _ fun se => keeps_bind _ _ _ fun b => ?_
  split
  · exact keeps_err _ _
  · refine keeps_bind _ _ _ fun l => keeps_bind _ _ _ fun w => ?_
    dsimp only
    refine keeps_bind _ _ _ fun a => keeps_bind _ _ _ fun z => ?_
    split
    · exact keeps_replace _ _ _ _ _
    · split
      · exact keeps_replace _ _ _ _ _
      · split
        · exact keeps_replace _ _ _ _ _
        · exact keeps_err _ _

theorem keeps_delete (json : Bytes) (p : List Bytes) : KeepsInput json (Delete json p) := by
  unfold Delete
  split
  · exact keeps_err _ _
  · refine keeps_bind _ _ _ fun l => keeps_bind _ _ _ fun w => ?_
    dsimp only
    refine keeps_bind _ _ _ fun a => keeps_bind _ _ _ fun z => ?_
    split
    · exact keeps_replace _ _ _ _ _
    · split
      · exact keeps_replace _ _ _ _ _
      · split
        · exact keeps_replace _ _ _ _ _
        · exact keeps_err _ _

theorem keeps_addKV (json k : Bytes) (t : Out Bytes) (p : List Bytes) : KeepsInput json (addKV json k t p) := by
  unfold addKV
  split
  · exact keeps_err _ _
  · exact keeps_bind _ _ _ fun _ => keeps_addKeyValue _ _ _ _

theorem keeps_addText (json : Bytes) (t : Out Bytes) (p : List Bytes) : KeepsInput json (addText json t p) :=
  keeps_bind _ _ _ fun _ => keeps_add _ _ _

theorem keeps_insertText (json : Bytes) (i : Int) (t : Out Bytes) (p : List Bytes) :
    KeepsInput json (insertText json i t p) := by
  unfold insertText
  split
  · exact keeps_err _ _
  · exact keeps_bind _ _ _ fun _ => keeps_insert _ _ _ _

/-- The two calls that return a nil slice with their error: `AddKeyValueString` with an
empty key and `InsertString` with a negative index (inter_add.go:236, 377). -/
def Call.nilOnError {F : Type} : Call F → Bool
  | .addKeyValueString k _ _ => k.length == 0
  | .insertString i _ _ => decide (i < 0)
  | _ => false

/-- **C27 (partial)** A failed mutation returns the bytes it was given, on arbitrary
bytes, paths, keys and values.  Missing: the two calls of `Call.nilOnError`, for which
the property is false (`C27_fails`, `C27_nil`). -/
theorem C27_failed_mutation_partial {F : Type} (fl : FloatLib F) (json : Bytes) (c : Call F)
    (hc : c.nilOnError = false) (j : Bytes) (e : Err) (h : c.run fl json = .done j (some e)) : j = json := by
  revert j e
  change KeepsInput json (c.run fl json)
  cases c with
  | addKeyValueString k v p =>
    simp only [Call.nilOnError] at hc
    simp only [Call.run, AddKeyValueString, hc, Bool.false_eq_true, if_false]
    exact keeps_addKeyValue _ _ _ _
  | insertString i v p =>
    simp only [Call.nilOnError, decide_eq_false_iff_not] at hc
    simp only [Call.run, InsertString, hc, if_false]
    exact keeps_insert _ _ _ _
  | set | setString | setInt | setFloat | setBool => exact keeps_set _ _ _
  | setKey => exact keeps_setKey _ _ _
  | store | storeString | storeInt | storeFloat | storeBool => exact keeps_store _ _ _ _
  | delete => exact keeps_delete _ _
  | add | addString | addInt | addFloat | addBool => exact keeps_add _ _ _
  | addInt32 | addInt64 | addUint | addUint32 | addUint64 =>
    simp only [Call.run, AddInt32, AddInt64, AddUint, AddUint32, AddUint64]
    exact keeps_addText _ _ _
  | addKeyValue => exact keeps_addKeyValue _ _ _ _
  | addKeyValueInt | addKeyValueInt32 | addKeyValueInt64 | addKeyValueUint | addKeyValueUint32 |
    addKeyValueUint64 | addKeyValueFloat | addKeyValueBool => exact keeps_addKV _ _ _ _
  | insert => exact keeps_insert _ _ _ _
  | insertInt | insertInt32 | insertInt64 | insertUint | insertUint32 | insertUint64 | insertFloat |
    insertBool => exact keeps_insertText _ _ _ _

/-- A trivial float library for the witnesses: nothing is a float. -/
def noFloats : FloatLib Unit := ⟨fun _ => none, fun _ => []⟩

example : (Call.set (F := Unit) [49] [str "b"]).nilOnError = false ∧
    (Call.set (F := Unit) [49] [str "b"]).run noFloats (str "{\"a\":1}") =
      .done (str "{\"a\":1}") (some (.keyNotFound (str "b"))) := by decide +kernel

/-- **C27 is false in general**: `AddKeyValueString` with an empty key returns an error
and no bytes. -/
theorem C27_fails : ¬ ∀ (json : Bytes) (c : Call Unit) (j : Bytes) (e : Err),
    c.run noFloats json = .done j (some e) → j = json := by
  intro h
  exact absurd (h (str "{\"a\":1}") (.addKeyValueString [] [49] []) [] .nullKey (by decide +kernel)) (by decide +kernel)

/-- The two exceptions lose every input. -/
theorem C27_nil {F : Type} (fl : FloatLib F) (json : Bytes) (c : Call F) (hc : c.nilOnError = true) :
    ∃ e, c.run fl json = .done [] (some e) := by
  cases c <;> simp only [Call.nilOnError, decide_eq_true_eq, reduceCtorEq] at hc
  · exact ⟨.nullKey, by simp [Call.run, AddKeyValueString, List.length_eq_zero_iff.1 (eq_of_beq hc)]⟩
  · exact ⟨.indexOutOfRange, by simp [Call.run, InsertString, hc]⟩

/-- **C27** The other typed functions refuse an empty key and a negative index before they look at the document: they
return it with a NullKey or an IndexOutOfRange error. -/
theorem C27_guards {F : Type} (fl : FloatLib F) (json : Bytes) (path : List Bytes) (n : Int) (m : Nat) (x : F) (b : Bool) {i : Int}
    (hi : i < 0) :
    (∀ r ∈ [AddKeyValueInt json [] n path, AddKeyValueInt32 json [] n path, AddKeyValueInt64 json [] n path, AddKeyValueUint json [] m path,
      AddKeyValueUint32 json [] m path, AddKeyValueUint64 json [] m path, AddKeyValueFloat fl json [] x path, AddKeyValueBool json [] b path],
      r = .done json (some .nullKey)) ∧
    (∀ r ∈ [InsertInt json i n path, InsertInt32 json i n path, InsertInt64 json i n path, InsertUint json i m path,
      InsertUint32 json i m path, InsertUint64 json i m path, InsertFloat fl json i x path, InsertBool json i b path],
      r = .done json (some .indexOutOfRange)) := by
  refine ⟨?_, ?_⟩
  · simp [AddKeyValueInt, AddKeyValueInt32, AddKeyValueInt64, AddKeyValueUint, AddKeyValueUint32, AddKeyValueUint64, AddKeyValueFloat,
      AddKeyValueBool, addKV]
  · simp [InsertInt, InsertInt32, InsertInt64, InsertUint, InsertUint32, InsertUint64, InsertFloat, InsertBool, insertText, hi]

/-! ### C28 -/

/-- **C28** With an empty path `Set`, `Delete` and `SetKey` return the NullPath error
(NullKey when the new key is empty) and the unchanged bytes. -/
theorem C28_need_path (json v k : Bytes) :
    Set json v [] = .done json (some .nullPath) ∧ Delete json [] = .done json (some .nullPath) ∧
    (k ≠ [] → SetKey json k [] = .done json (some .nullPath)) ∧
    (∀ p, SetKey json [] p = .done json (some .nullKey)) := by
  refine ⟨rfl, rfl, ?_, fun _ => rfl⟩
  intro h
  cases k with
  | nil => exact absurd rfl h
  | cons c k => rfl

/-- **C28** The same for the typed variants of `Set`. -/
theorem C28_typed {F : Type} (fl : FloatLib F) (json v : Bytes) (n : Int) (x : F) (b : Bool) :
    SetString fl.accepts json v [] = .done json (some .nullPath) ∧ SetInt json n [] = .done json (some .nullPath) ∧
    SetFloat fl json x [] = .done json (some .nullPath) ∧ SetBool json b [] = .done json (some .nullPath) :=
  ⟨rfl, rfl, rfl, rfl⟩

/-! ### C51, C52: the JO wrapper -/

/-- The byte function of the same name as a `JO` method. -/
def JOp.call {F : Type} : JOp F → Call F
  | .addKeyValue k v p => .addKeyValue k v p
  | .add v p => .add v p
  | .insert i v p => .insert i v p
  | .addKeyValueString k v p => .addKeyValueString k v p
  | .addKeyValueInt k v p => .addKeyValueInt k v p
  | .addKeyValueFloat k v p => .addKeyValueFloat k v p
  | .addKeyValueBool k v p => .addKeyValueBool k v p
  | .addString v p => .addString v p
  | .addInt v p => .addInt v p
  | .addFloat v p => .addFloat v p
  | .addBool v p => .addBool v p
  | .insertString i v p => .insertString i v p
  | .insertInt i v p => .insertInt i v p
  | .insertFloat i v p => .insertFloat i v p
  | .insertBool i v p => .insertBool i v p
  | .store k v p => .store k v p
  | .storeString k v p => .storeString k v p
  | .storeInt k v p => .storeInt k v p
  | .storeFloat k v p => .storeFloat k v p
  | .storeBool k v p => .storeBool k v p
  | .set v p => .set v p
  | .setString v p => .setString v p
  | .setInt v p => .setInt v p
  | .setFloat v p => .setFloat v p
  | .setBool v p => .setBool v p
  | .setKey k p => .setKey k p
  | .delete p => .delete p

/-- `JO.StoreString` of a text that `formatType` would change. -/
def JOp.rawString {F : Type} (fl : FloatLib F) : JOp F → Bool
  | .storeString _ v _ => formatType fl.accepts v != v
  | _ => false

/-- **C51 (partial)** A mutating `JO` method does what the function of the same name does
on the body.  Missing: `JO.StoreString`, which stores the raw text (`C51_fails`). -/
theorem C51_jo_method_partial {F : Type} (fl : FloatLib F) (j : JO) (op : JOp F) (h : op.rawString fl = false) :
    j.step fl op = op.call.run fl j.body := by
  cases op with
  | storeString k v p =>
    simp only [JOp.rawString, bne_eq_false_iff_eq] at h
    simp only [JO.step, JOp.call, Call.run, StoreString, h]
  | _ => rfl

/-- A history of `JO` calls: the body after each call is what the call returned; a
panic ends the history. -/
def JO.runAll {F : Type} (fl : FloatLib F) (j : JO) : List (JOp F) → Option (JO × List (Option Err))
  | [] => some (j, [])
  | op :: ops =>
    match j.step fl op with
    | .panic => none
    | .done b e => (JO.runAll fl ⟨b⟩ ops).map fun r => (r.1, e :: r.2)

/-- The same history with the byte functions. -/
def runCalls {F : Type} (fl : FloatLib F) (json : Bytes) : List (Call F) → Option (Bytes × List (Option Err))
  | [] => some (json, [])
  | c :: cs =>
    match c.run fl json with
    | .panic => none
    | .done b e => (runCalls fl b cs).map fun r => (r.1, e :: r.2)

/-- **C51 (partial)** Every sequence of `JO` calls gives the bytes and errors of the same
sequence of function calls threaded through the text. -/
theorem C51_jo_history_partial {F : Type} (fl : FloatLib F) (ops : List (JOp F)) : ∀ (j : JO),
    (∀ op ∈ ops, op.rawString fl = false) →
    (j.runAll fl ops).map (fun r => (r.1.body, r.2)) = runCalls fl j.body (ops.map JOp.call) := by
  induction ops with
  | nil => intro j _; rfl
  | cons op ops ih =>
    intro j h
    rw [List.map_cons, JO.runAll, runCalls, C51_jo_method_partial fl j op (h op (by simp))]
    cases op.call.run fl j.body with
    | panic => rfl
    | done b e =>
      have := ih ⟨b⟩ (fun o ho => h o (by simp [ho]))
      simp only [← this, Option.map_map]
      rfl

example : JO.runAll noFloats NewJSON [.store (str "a") (some (str "1")) [], .delete [str "b"], .setInt 7 [str "a"]] =
    some (⟨str "{\"a\":7}"⟩, [none, some (.keyNotFound (str "b")), none]) := by decide +kernel

/-- **C51 is false for `JO.StoreString`**: it stores `x` unquoted, `StoreString` quotes it. -/
theorem C51_fails : ¬ ∀ (j : JO) (op : JOp Unit), j.step noFloats op = op.call.run noFloats j.body := by
  intro h
  exact absurd (h NewJSON (.storeString (str "a") (str "x") [])) (by decide +kernel)

/-- **C52 (partial)** A failing `JO` call leaves the body unchanged.  Missing: the two
calls of `Call.nilOnError`, which lose the body (`C52_fails`). -/
theorem C52_jo_failure_partial {F : Type} (fl : FloatLib F) (j : JO) (op : JOp F)
    (hc : op.call.nilOnError = false) (b : Bytes) (e : Err) (h : j.step fl op = .done b (some e)) : b = j.body := by
  by_cases hr : op.rawString fl = false
  · rw [C51_jo_method_partial fl j op hr] at h
    exact C27_failed_mutation_partial fl j.body op.call hc b e h
  · cases op <;> simp only [JOp.rawString, not_true_eq_false] at hr
    exact keeps_store _ _ _ _ b e h

theorem C52_fails : ¬ ∀ (j : JO) (op : JOp Unit) (b : Bytes) (e : Err),
    j.step noFloats op = .done b (some e) → b = j.body := by
  intro h
  exact absurd (h ⟨str "{\"a\":1}"⟩ (.insertString (-1) [49] []) [] .indexOutOfRange (by decide +kernel))
    (by decide +kernel)

/-! ### C58 -/

theorem atoi_fmt02 : ∀ n : Fin 100, atoi (fmt02 n.1) = some (n.1 : Int) := by decide +kernel

/-- **C58** `ErrEqual` recognises exactly the code of a package error, whatever text the
error embeds; nil has no code. -/
theorem C58_errEqual (e : Err) (c code : Int) (hc : e.code = some c) :
    (errEqual (some e) code = true ↔ code = c) ∧ errEqual none code = false := by
  refine ⟨?_, rfl⟩
  have h2 : 0 ≤ c ∧ c < 100 := by
    cases e <;> simp only [Err.code, Option.some.injEq, reduceCtorEq] at hc <;> omega
  have hlen : ∀ n, (fmt02 n).length = 2 := fun n => rfl
  have hm : e.msg = (e.text ++ bCode) ++ fmt02 c.toNat := by unfold Err.msg; rw [hc]
  have ha := atoi_fmt02 ⟨c.toNat, by omega⟩
  simp only at ha
  unfold errEqual
  simp only [hm]
  rw [if_neg (by simp [hlen]; omega), List.length_append, hlen, Nat.add_sub_cancel, List.drop_left, ha]
  simp only [beq_iff_eq]
  constructor <;> intro h <;> omega

example : (Err.keyNotFound (str "x error_code: 09")).code = some 8 ∧
    errEqual (some (.keyNotFound (str "x error_code: 09"))) 8 = true := by decide +kernel

/-- Two bytes that `strconv.Atoi` accepts: two digits, or a sign and a digit. -/
theorem atoi_two (a b : UInt8) (code : Int) : atoi [a, b] = some code ↔
    isDigit b ∧ (isDigit a ∧ code = 10 * (a.toNat - 48 : Nat) + (b.toNat - 48 : Nat) ∨ a = 43 ∧ code = (b.toNat - 48 : Nat) ∨
      a = 45 ∧ code = -(b.toNat - 48 : Nat)) := by
  have hb : b.toNat < 256 := b.toNat_lt
  have ha : a.toNat < 256 := a.toNat_lt
  have n43 : isDigit 43 = false := by decide
  have n45 : isDigit 45 = false := by decide
  unfold atoi parseIntBits
  by_cases h1 : a = 43
  · subst h1
    by_cases hd : isDigit b = true
    · simp [parseNat, digitsVal, hd, n43]; omega
    · simp [parseNat, digitsVal, hd]
  · by_cases h2 : a = 45
    · subst h2
      by_cases hd : isDigit b = true
      · simp [parseNat, digitsVal, hd, n45]; omega
      · simp [parseNat, digitsVal, hd]
    · split
      · rename_i heq; injection heq; contradiction
      · rename_i heq; injection heq; contradiction
      · by_cases hd : isDigit a = true <;> by_cases hd' : isDigit b = true <;> simp [parseNat, digitsVal, hd, hd', h1, h2]
        omega

/-- An error that is not one of the package (one that the callback of an iterator returned) has a
code when its message ends with one: at least two bytes, the last a digit, the one before it a
digit or a sign. -/
theorem C58_foreign (m : Bytes) (code : Int) : errEqual (some (.other m)) code = true ↔
    ∃ pre a b, m = pre ++ [a, b] ∧ isDigit b ∧ (isDigit a ∧ code = 10 * (a.toNat - 48 : Nat) + (b.toNat - 48 : Nat) ∨
      a = 43 ∧ code = (b.toNat - 48 : Nat) ∨ a = 45 ∧ code = -(b.toNat - 48 : Nat)) := by
  have hm : (Err.other m).msg = m := rfl
  unfold errEqual
  simp only [hm]
  by_cases hl : m.length < 2
  · rw [if_pos hl]
    refine ⟨(fun h => by cases h), ?_⟩
    rintro ⟨pre, a, b, rfl, -⟩
    simp at hl; omega
  · rw [if_neg hl]
    obtain ⟨pre, a, b, rfl⟩ : ∃ pre a b, m = pre ++ [a, b] := by
      have h2 : (m.drop (m.length - 2)).length = 2 := by simp; omega
      match h : m.drop (m.length - 2), h2 with
      | [a, b], _ => exact ⟨m.take (m.length - 2), a, b, by rw [← h, List.take_append_drop]⟩
    have hd : (pre ++ [a, b]).drop ((pre ++ [a, b]).length - 2) = [a, b] := by simp
    rw [hd]
    constructor
    · intro h
      cases ha : atoi [a, b] with
      | none => rw [ha] at h; cases h
      | some c =>
        rw [ha] at h
        have : c = code := by simpa using h
        subst this
        exact ⟨pre, a, b, rfl, (atoi_two a b c).1 ha⟩
    · rintro ⟨pre', a', b', h, hc⟩
      obtain ⟨-, h⟩ := List.append_inj' h rfl
      injection h with h1 h
      injection h with h2
      subst h1; subst h2
      rw [(atoi_two a b code).2 hc]
      simp

example : errEqual (some (.other (str "retry in 08"))) 8 = true ∧ errEqual (some (.other (str "retry in 08"))) 9 = false ∧
    errEqual (some (.other (str "8"))) 8 = false ∧ errEqual (some (.other (str "code -8"))) (-8) = true := by decide +kernel

end Jin
