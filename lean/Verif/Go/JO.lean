import Verif.Go.Text
/-!
# Go.JO — running the text of `/repo/jin_object*.go`

A pointer to a `JO` is read as its field `body`: a method gets the body and returns it before its own results.
-/

namespace Jin.Go

/-- A call that another one leads to. -/
theorem Call.lift {fl : FloatLib UInt64} {f f' : Id} {g : Func} {args args' : List Val} {path path' : List Bytes} {r r' : R (List Val)} {ps : List Id} {x : Id}
    (h : Call fl f args path r)
    (hg : (jin fl).funcs.find? (fun g => g.name == f') = some g) (hv : g.variadic = true) (hp : g.params = ps ++ [x])
    (hl : ps.length = args'.length)
    (hr : ∀ fuel d, (jin fl).fn fuel (d + 1) f true (args ++ [.strs path]) = r →
      (jin fl).fn fuel (d + 2) f' true (args' ++ [.strs path']) = r') : Call fl f' args' path' r' := by
  obtain ⟨N, h⟩ := h
  exact Call.of hg hv hp hl N (N + 1) fun fuel d hf => hr fuel (d + N) (h fuel (d + N + 1) (by omega) (by omega)).1

/-- The call of a method that changes the object: its name, its arguments, and the path. -/
def joCall : JOp UInt64 → Id × List Val × List Bytes
  | .addKeyValue k v p => (go% JO.AddKeyValue, [.bytes k, optBytes v], p)
  | .add v p => (go% JO.Add, [.bytes v], p)
  | .insert i v p => (go% JO.Insert, [.int i, .bytes v], p)
  | .addKeyValueString k v p => (go% JO.AddKeyValueString, [.bytes k, .bytes v], p)
  | .addKeyValueInt k v p => (go% JO.AddKeyValueInt, [.bytes k, .int v], p)
  | .addKeyValueFloat k v p => (go% JO.AddKeyValueFloat, [.bytes k, .float v], p)
  | .addKeyValueBool k v p => (go% JO.AddKeyValueBool, [.bytes k, .bool v], p)
  | .addString v p => (go% JO.AddString, [.bytes v], p)
  | .addInt v p => (go% JO.AddInt, [.int v], p)
  | .addFloat v p => (go% JO.AddFloat, [.float v], p)
  | .addBool v p => (go% JO.AddBool, [.bool v], p)
  | .insertString i v p => (go% JO.InsertString, [.int i, .bytes v], p)
  | .insertInt i v p => (go% JO.InsertInt, [.int i, .int v], p)
  | .insertFloat i v p => (go% JO.InsertFloat, [.int i, .float v], p)
  | .insertBool i v p => (go% JO.InsertBool, [.int i, .bool v], p)
  | .store k v p => (go% JO.Store, [.bytes k, optBytes v], p)
  | .storeString k v p => (go% JO.StoreString, [.bytes k, .bytes v], p)
  | .storeInt k v p => (go% JO.StoreInt, [.bytes k, .int v], p)
  | .storeFloat k v p => (go% JO.StoreFloat, [.bytes k, .float v], p)
  | .storeBool k v p => (go% JO.StoreBool, [.bytes k, .bool v], p)
  | .set v p => (go% JO.Set, [.bytes v], p)
  | .setString v p => (go% JO.SetString, [.bytes v], p)
  | .setInt v p => (go% JO.SetInt, [.int v], p)
  | .setFloat v p => (go% JO.SetFloat, [.float v], p)
  | .setBool v p => (go% JO.SetBool, [.bool v], p)
  | .setKey k p => (go% JO.SetKey, [.bytes k], p)
  | .delete p => (go% JO.Delete, [], p)

/-- Calls that leave the object with a nil body (C51, C52). -/
def joNil : JOp UInt64 → Bool
  | .addKeyValueString k _ _ => k.length == 0
  | .insertString i _ _ => decide (i < 0)
  | _ => false

/-- The body and the error after a call. -/
def joVals (op : JOp UInt64) (m : Mut) : R (List Val) :=
  if joNil op then
    match m with
    | .done _ (some e) => .ok [.nil, .err e]
    | _ => .stuck
  else mutVals m

theorem two_mutVals (m : Mut) : (∃ b e, mutVals m = .ok [b, e]) ∨ mutVals m = .panic := by
  rcases m with ⟨b, _ | e⟩ | _
  · exact .inl ⟨_, _, rfl⟩
  · exact .inl ⟨_, _, rfl⟩
  · exact .inr rfl

theorem two_ite (c : Prop) [Decidable c] (a e : Val) (m : Mut) :
    (∃ x y, (if c then R.ok [a, e] else mutVals m) = .ok [x, y]) ∨ (if c then R.ok [a, e] else mutVals m) = .panic := by
  split
  · exact .inl ⟨_, _, rfl⟩
  · exact two_mutVals m

/-- `var err error; j.body, err = f(…); return j.body, err` -/
macro "jo_mut " g:ident ", " r:term ", " t:term ", " b:term : tactic => `(tactic| (
  have h0 : Call _ _ _ _ $r := $b
  have h1 := ($t : (∃ b e, $r = .ok [b, e]) ∨ $r = .panic)
  revert h0 h1
  generalize $r = r
  intro h0 h1
  refine Call.lift h0 (g := $g) (ps := (Func.params $g).dropLast) (x := 1885434984) rfl rfl rfl rfl fun fuel d h => ?_
  simp only [List.cons_append, List.nil_append, optBytes.eq_2] at h ⊢
  rw [fn_run (g := $g) rfl]
  rcases h1 with ⟨b, e, hr⟩ | hr <;> subst hr <;> run_go [Func.run, $g:ident, bindParams, h]))

section
variable {fl : FloatLib UInt64}
theorem text_JO_AddKeyValue (j : JO) (k v p : _) :
    Call fl (go% JO.AddKeyValue) (.bytes j.body :: [.bytes k, optBytes v]) p (mutVals (JO.step fl j (.addKeyValue k v p))) := by
  jo_mut Src.JO.AddKeyValue, mutVals (JO.step fl j (.addKeyValue k v p)), two_mutVals _, text_AddKeyValue fl j.body p k v

theorem text_JO_Add (j : JO) (v p : _) :
    Call fl (go% JO.Add) (.bytes j.body :: [.bytes v]) p (mutVals (JO.step fl j (.add v p))) := by
  jo_mut Src.JO.Add, mutVals (JO.step fl j (.add v p)), two_mutVals _, text_Add fl j.body p (some v)

theorem text_JO_Insert (j : JO) (i v p : _) :
    Call fl (go% JO.Insert) (.bytes j.body :: [.int i, .bytes v]) p (mutVals (JO.step fl j (.insert i v p))) := by
  jo_mut Src.JO.Insert, mutVals (JO.step fl j (.insert i v p)), two_mutVals _, text_Insert fl j.body p i (some v)

theorem text_JO_AddKeyValueInt (j : JO) (k v p : _) :
    Call fl (go% JO.AddKeyValueInt) (.bytes j.body :: [.bytes k, .int v]) p (mutVals (JO.step fl j (.addKeyValueInt k v p))) := by
  jo_mut Src.JO.AddKeyValueInt, mutVals (JO.step fl j (.addKeyValueInt k v p)), two_mutVals _, text_AddKeyValueInt fl j.body p k v

theorem text_JO_AddKeyValueFloat (j : JO) (k v p : _) :
    Call fl (go% JO.AddKeyValueFloat) (.bytes j.body :: [.bytes k, .float v]) p (mutVals (JO.step fl j (.addKeyValueFloat k v p))) := by
  jo_mut Src.JO.AddKeyValueFloat, mutVals (JO.step fl j (.addKeyValueFloat k v p)), two_mutVals _, text_AddKeyValueFloat fl j.body p k v

theorem text_JO_AddKeyValueBool (j : JO) (k v p : _) :
    Call fl (go% JO.AddKeyValueBool) (.bytes j.body :: [.bytes k, .bool v]) p (mutVals (JO.step fl j (.addKeyValueBool k v p))) := by
  jo_mut Src.JO.AddKeyValueBool, mutVals (JO.step fl j (.addKeyValueBool k v p)), two_mutVals _, text_AddKeyValueBool fl j.body p k v

theorem text_JO_AddString (j : JO) (v p : _) :
    Call fl (go% JO.AddString) (.bytes j.body :: [.bytes v]) p (mutVals (JO.step fl j (.addString v p))) := by
  jo_mut Src.JO.AddString, mutVals (JO.step fl j (.addString v p)), two_mutVals _, text_AddString fl j.body p v

theorem text_JO_AddInt (j : JO) (v p : _) :
    Call fl (go% JO.AddInt) (.bytes j.body :: [.int v]) p (mutVals (JO.step fl j (.addInt v p))) := by
  jo_mut Src.JO.AddInt, mutVals (JO.step fl j (.addInt v p)), two_mutVals _, text_AddInt fl j.body p v

theorem text_JO_AddFloat (j : JO) (v p : _) :
    Call fl (go% JO.AddFloat) (.bytes j.body :: [.float v]) p (mutVals (JO.step fl j (.addFloat v p))) := by
  jo_mut Src.JO.AddFloat, mutVals (JO.step fl j (.addFloat v p)), two_mutVals _, text_AddFloat fl j.body p v

theorem text_JO_AddBool (j : JO) (v p : _) :
    Call fl (go% JO.AddBool) (.bytes j.body :: [.bool v]) p (mutVals (JO.step fl j (.addBool v p))) := by
  jo_mut Src.JO.AddBool, mutVals (JO.step fl j (.addBool v p)), two_mutVals _, text_AddBool fl j.body p v

theorem text_JO_InsertInt (j : JO) (i v p : _) :
    Call fl (go% JO.InsertInt) (.bytes j.body :: [.int i, .int v]) p (mutVals (JO.step fl j (.insertInt i v p))) := by
  jo_mut Src.JO.InsertInt, mutVals (JO.step fl j (.insertInt i v p)), two_mutVals _, text_InsertInt fl j.body p i v

theorem text_JO_InsertFloat (j : JO) (i v p : _) :
    Call fl (go% JO.InsertFloat) (.bytes j.body :: [.int i, .float v]) p (mutVals (JO.step fl j (.insertFloat i v p))) := by
  jo_mut Src.JO.InsertFloat, mutVals (JO.step fl j (.insertFloat i v p)), two_mutVals _, text_InsertFloat fl j.body p i v

theorem text_JO_InsertBool (j : JO) (i v p : _) :
    Call fl (go% JO.InsertBool) (.bytes j.body :: [.int i, .bool v]) p (mutVals (JO.step fl j (.insertBool i v p))) := by
  jo_mut Src.JO.InsertBool, mutVals (JO.step fl j (.insertBool i v p)), two_mutVals _, text_InsertBool fl j.body p i v

theorem text_JO_StoreString (j : JO) (k v p : _) :
    Call fl (go% JO.StoreString) (.bytes j.body :: [.bytes k, .bytes v]) p (mutVals (JO.step fl j (.storeString k v p))) := by
  jo_mut Src.JO.StoreString, mutVals (JO.step fl j (.storeString k v p)), two_mutVals _, text_Store fl j.body p k (some v)

theorem text_JO_StoreInt (j : JO) (k v p : _) :
    Call fl (go% JO.StoreInt) (.bytes j.body :: [.bytes k, .int v]) p (mutVals (JO.step fl j (.storeInt k v p))) := by
  jo_mut Src.JO.StoreInt, mutVals (JO.step fl j (.storeInt k v p)), two_mutVals _, text_Store fl j.body p k (some (itoa v))

theorem text_JO_StoreFloat (j : JO) (k v p : _) :
    Call fl (go% JO.StoreFloat) (.bytes j.body :: [.bytes k, .float v]) p (mutVals (JO.step fl j (.storeFloat k v p))) := by
  jo_mut Src.JO.StoreFloat, mutVals (JO.step fl j (.storeFloat k v p)), two_mutVals _, text_Store fl j.body p k (some (fl.format v))

theorem text_JO_StoreBool (j : JO) (k v p : _) :
    Call fl (go% JO.StoreBool) (.bytes j.body :: [.bytes k, .bool v]) p (mutVals (JO.step fl j (.storeBool k v p))) := by
  cases v
  · jo_mut Src.JO.StoreBool, mutVals (JO.step fl j (.storeBool k false p)), two_mutVals _, text_Store fl j.body p k (some [102, 97, 108, 115, 101])
  · jo_mut Src.JO.StoreBool, mutVals (JO.step fl j (.storeBool k true p)), two_mutVals _, text_Store fl j.body p k (some [116, 114, 117, 101])

theorem text_JO_Set (j : JO) (v p : _) :
    Call fl (go% JO.Set) (.bytes j.body :: [.bytes v]) p (mutVals (JO.step fl j (.set v p))) := by
  jo_mut Src.JO.Set, mutVals (JO.step fl j (.set v p)), two_mutVals _, text_Set fl j.body p (some v)

theorem text_JO_SetString (j : JO) (v p : _) :
    Call fl (go% JO.SetString) (.bytes j.body :: [.bytes v]) p (mutVals (JO.step fl j (.setString v p))) := by
  jo_mut Src.JO.SetString, mutVals (JO.step fl j (.setString v p)), two_mutVals _, text_SetString fl j.body p v

theorem text_JO_SetInt (j : JO) (v p : _) :
    Call fl (go% JO.SetInt) (.bytes j.body :: [.int v]) p (mutVals (JO.step fl j (.setInt v p))) := by
  jo_mut Src.JO.SetInt, mutVals (JO.step fl j (.setInt v p)), two_mutVals _, text_SetInt fl j.body p v

theorem text_JO_SetFloat (j : JO) (v p : _) :
    Call fl (go% JO.SetFloat) (.bytes j.body :: [.float v]) p (mutVals (JO.step fl j (.setFloat v p))) := by
  jo_mut Src.JO.SetFloat, mutVals (JO.step fl j (.setFloat v p)), two_mutVals _, text_SetFloat fl j.body p v

theorem text_JO_SetBool (j : JO) (v p : _) :
    Call fl (go% JO.SetBool) (.bytes j.body :: [.bool v]) p (mutVals (JO.step fl j (.setBool v p))) := by
  jo_mut Src.JO.SetBool, mutVals (JO.step fl j (.setBool v p)), two_mutVals _, text_SetBool fl j.body p v

theorem text_JO_SetKey (j : JO) (k p : _) :
    Call fl (go% JO.SetKey) (.bytes j.body :: [.bytes k]) p (mutVals (JO.step fl j (.setKey k p))) := by
  jo_mut Src.JO.SetKey, mutVals (JO.step fl j (.setKey k p)), two_mutVals _, text_SetKey fl j.body p k

theorem text_JO_Delete (j : JO) (p : _) :
    Call fl (go% JO.Delete) (.bytes j.body :: []) p (mutVals (JO.step fl j (.delete p))) := by
  jo_mut Src.JO.Delete, mutVals (JO.step fl j (.delete p)), two_mutVals _, text_Delete fl j.body p

theorem run_JO_Store {fuel d : Nat} {path : List Bytes} (j : JO) (hf : need j.body path < fuel) (key : Bytes) (v : Option Bytes) (hf2 : need j.body (path ++ [key]) < fuel) :
    (jin fl).fn fuel (d + 5) (go% JO.Store) true [.bytes j.body, .bytes key, optBytes v, .strs path] = mutVals (JO.Store j key v path) := by
  rw [fn_run (g := Src.JO.Store) rfl]
  refine mut_body rfl ?_
  cases h : core j.body false (path ++ [key]) with
  | panic => run_go [Src.JO.Store, JO.Store, Mut.res, run_core hf2, h, locVals]
  | err e =>
    cases h2 : errEqual (some e) codeKeyNotFound
    · run_go [Src.JO.Store, JO.Store, Mut.res, run_core hf2, h, h2, locVals]
    · rcases Mut.forms (AddKeyValue j.body key v path) with ⟨b, h3⟩ | ⟨b, e, h3⟩ | h3 <;>
        run_go [Src.JO.Store, JO.Store, Mut.res, run_core hf2, h, h2, locVals, run_AddKeyValue' hf key v hf2, h3, mutVals]
  | ok l =>
    have e1 := elem_pred j.body l.start
    have e2 := elem_idx j.body l.stop
    rcases idx_cases j.body ((l.start : Int) - 1) with ⟨a, h1⟩ | h1
    · cases h2 : a == 34
      · rcases replace_cases j.body (v.getD []) l.start l.stop with ⟨r, h3⟩ | h3 <;> cases v <;>
          simp only [Option.getD_none, Option.getD_some] at h3 <;>
          run_go [Src.JO.Store, JO.Store, Mut.res, run_core hf2, h, locVals, Mut.bindOut, replaceValue, quotedAt,
            e1, h1, h2, h3, Mut.ofOut, optBytes, Option.getD_none, Option.getD_some]
      · rcases idx_cases j.body l.stop with ⟨b, h3⟩ | h3
        · rw [idx_nat] at h3
          cases h4 : b == 34
          · rcases replace_cases j.body (v.getD []) l.start l.stop with ⟨r, h5⟩ | h5 <;> cases v <;>
              simp only [Option.getD_none, Option.getD_some] at h5 <;>
              run_go [Src.JO.Store, JO.Store, Mut.res, run_core hf2, h, locVals, Mut.bindOut, replaceValue, quotedAt,
                e1, h1, h2, h3, h4, h5, e2, idx_nat, Mut.ofOut, optBytes, Option.getD_none, Option.getD_some]
          · rcases replace_cases j.body (v.getD []) ((l.start : Int) - 1) (l.stop + 1) with ⟨r, h5⟩ | h5 <;> cases v <;>
              simp only [Option.getD_none, Option.getD_some] at h5 <;>
              run_go [Src.JO.Store, JO.Store, Mut.res, run_core hf2, h, locVals, Mut.bindOut, replaceValue, quotedAt,
                e1, h1, h2, h3, h4, h5, e2, idx_nat, Mut.ofOut, optBytes, Option.getD_none, Option.getD_some]
        · rw [idx_nat] at h3
          run_go [Src.JO.Store, JO.Store, Mut.res, run_core hf2, h, locVals, Mut.bindOut, replaceValue, quotedAt,
            e1, h1, h2, h3, e2, idx_nat]
    · run_go [Src.JO.Store, JO.Store, Mut.res, run_core hf2, h, locVals, Mut.bindOut, replaceValue, quotedAt, e1, h1]


theorem text_JO_Store (j : JO) (k v p : _) :
    Call fl (go% JO.Store) (.bytes j.body :: [.bytes k, optBytes v]) p (mutVals (JO.step fl j (.store k v p))) :=
  Call.of (g := Src.JO.Store) (ps := [_, _, _]) rfl rfl rfl rfl (need j.body p + need j.body (p ++ [k])) 4 fun _ _ h => run_JO_Store j (by omega) k v (by omega)

theorem text_JO_AddKeyValueString (j : JO) (k v p : _) :
    Call fl (go% JO.AddKeyValueString) (.bytes j.body :: [.bytes k, .bytes v]) p
      (if k.length == 0 then .ok [.nil, .err .nullKey] else mutVals (JO.step fl j (.addKeyValueString k v p))) := by
  jo_mut Src.JO.AddKeyValueString, (if k.length == 0 then .ok [.nil, .err .nullKey] else mutVals (JO.step fl j (.addKeyValueString k v p))),
    two_ite _ _ _ _, text_AddKeyValueString fl j.body p k v

theorem text_JO_InsertString (j : JO) (i v p : _) :
    Call fl (go% JO.InsertString) (.bytes j.body :: [.int i, .bytes v]) p
      (if i < 0 then .ok [.nil, .err .indexOutOfRange] else mutVals (JO.step fl j (.insertString i v p))) := by
  jo_mut Src.JO.InsertString, (if i < 0 then .ok [.nil, .err .indexOutOfRange] else mutVals (JO.step fl j (.insertString i v p))),
    two_ite _ _ _ _, text_InsertString fl j.body p i v

/-- Every call that changes an object, run from the text of `/repo/jin_object*.go`, leaves the body and the error of the model. -/
theorem text_JO_step (j : JO) (op : JOp UInt64) :
    Call fl (joCall op).1 (.bytes j.body :: (joCall op).2.1) (joCall op).2.2 (joVals op (JO.step fl j op)) := by
  cases op with
  | addKeyValueString k v p =>
    have h : joVals (.addKeyValueString k v p) (JO.step fl j (.addKeyValueString k v p)) =
        if k.length == 0 then .ok [.nil, .err .nullKey] else mutVals (JO.step fl j (.addKeyValueString k v p)) := by
      cases hk : k.length == 0
      · unfold joVals; rw [show joNil (.addKeyValueString k v p) = false from hk]; rfl
      · have hs : JO.step fl j (.addKeyValueString k v p) = .done [] (some .nullKey) := by
          show AddKeyValueString _ _ _ _ _ = _
          rw [AddKeyValueString, if_pos hk]
        unfold joVals; rw [show joNil (.addKeyValueString k v p) = true from hk, hs]
    rw [h]; exact text_JO_AddKeyValueString j k v p
  | insertString i v p =>
    have h : joVals (.insertString i v p) (JO.step fl j (.insertString i v p)) =
        if i < 0 then .ok [.nil, .err .indexOutOfRange] else mutVals (JO.step fl j (.insertString i v p)) := by
      by_cases hk : i < 0
      · have hs : JO.step fl j (.insertString i v p) = .done [] (some .indexOutOfRange) := by
          show InsertString _ _ _ _ _ = _
          rw [InsertString, if_pos (by simpa using hk)]
        unfold joVals; rw [show joNil (.insertString i v p) = true from decide_eq_true hk, hs, if_pos hk]; rfl
      · unfold joVals; rw [show joNil (.insertString i v p) = false from decide_eq_false hk, if_neg hk]; rfl
    rw [h]; exact text_JO_InsertString j i v p
  | addKeyValue k v p => exact text_JO_AddKeyValue j k v p
  | add v p => exact text_JO_Add j v p
  | insert i v p => exact text_JO_Insert j i v p
  | addKeyValueInt k v p => exact text_JO_AddKeyValueInt j k v p
  | addKeyValueFloat k v p => exact text_JO_AddKeyValueFloat j k v p
  | addKeyValueBool k v p => exact text_JO_AddKeyValueBool j k v p
  | addString v p => exact text_JO_AddString j v p
  | addInt v p => exact text_JO_AddInt j v p
  | addFloat v p => exact text_JO_AddFloat j v p
  | addBool v p => exact text_JO_AddBool j v p
  | insertInt i v p => exact text_JO_InsertInt j i v p
  | insertFloat i v p => exact text_JO_InsertFloat j i v p
  | insertBool i v p => exact text_JO_InsertBool j i v p
  | store k v p => exact text_JO_Store j k v p
  | storeString k v p => exact text_JO_StoreString j k v p
  | storeInt k v p => exact text_JO_StoreInt j k v p
  | storeFloat k v p => exact text_JO_StoreFloat j k v p
  | storeBool k v p => exact text_JO_StoreBool j k v p
  | set v p => exact text_JO_Set j v p
  | setString v p => exact text_JO_SetString j v p
  | setInt v p => exact text_JO_SetInt j v p
  | setFloat v p => exact text_JO_SetFloat j v p
  | setBool v p => exact text_JO_SetBool j v p
  | setKey k p => exact text_JO_SetKey j k p
  | delete p => exact text_JO_Delete j p

/-! ### The methods that read -/

/-- The results of a method that does not change the body. -/
def addBody (body : Bytes) : R (List Val) → R (List Val)
  | .ok vs => .ok (.bytes body :: vs)
  | .panic => .panic
  | .stuck => .stuck

theorem two_oneVal {α : Type} (f : α → Val) (bad : Val) (r : Out α) : (∃ b e, oneVal f bad r = .ok [b, e]) ∨ oneVal f bad r = .panic := by
  rcases r with a | e | _
  · exact .inl ⟨_, _, rfl⟩
  · exact .inl ⟨_, _, rfl⟩
  · exact .inr rfl

theorem three_pairVals (r : Out (List Bytes × List Bytes)) : (∃ a b e, pairVals r = .ok [a, b, e]) ∨ pairVals r = .panic := by
  rcases r with ⟨a, b⟩ | e | _
  · exact .inl ⟨_, _, _, rfl⟩
  · exact .inl ⟨_, _, _, rfl⟩
  · exact .inr rfl

/-- `return f(j.body, path...)` -/
macro "jo_read " g:ident ", " r:term ", " b:term : tactic => `(tactic| (
  have h0 : Call _ _ _ _ $r := $b
  have h1 := (two_oneVal _ _ _ : (∃ b e, $r = .ok [b, e]) ∨ $r = .panic)
  revert h0 h1
  generalize $r = r
  intro h0 h1
  refine Call.lift h0 (g := $g) (ps := (Func.params $g).dropLast) (x := 1885434984) rfl rfl rfl rfl fun fuel d h => ?_
  simp only [List.cons_append, List.nil_append] at h ⊢
  rw [fn_run (g := $g) rfl]
  rcases h1 with ⟨b, e, hr⟩ | hr <;> subst hr <;> run_go [Func.run, $g:ident, bindParams, h, addBody]))

theorem text_JO_Get (j : JO) (p : _) :
    Call fl (go% JO.Get) [.bytes j.body] p (addBody j.body (oneVal .bytes .nil (Get j.body p))) := by
  jo_read Src.JO.Get, (oneVal .bytes .nil (Get j.body p)), text_Get fl j.body p

theorem text_JO_GetString (j : JO) (p : _) :
    Call fl (go% JO.GetString) [.bytes j.body] p (addBody j.body (oneVal .bytes (.bytes []) (GetString j.body p))) := by
  jo_read Src.JO.GetString, (oneVal .bytes (.bytes []) (GetString j.body p)), text_GetString fl j.body p

theorem text_JO_GetInt (j : JO) (p : _) :
    Call fl (go% JO.GetInt) [.bytes j.body] p (addBody j.body (oneVal .int (.int (-1)) (GetInt j.body p))) := by
  jo_read Src.JO.GetInt, (oneVal .int (.int (-1)) (GetInt j.body p)), text_GetInt fl j.body p

theorem text_JO_GetFloat (j : JO) (p : _) :
    Call fl (go% JO.GetFloat) [.bytes j.body] p (addBody j.body (oneVal .float (.int (-1)) (GetFloat fl j.body p))) := by
  jo_read Src.JO.GetFloat, (oneVal .float (.int (-1)) (GetFloat fl j.body p)), text_GetFloat fl j.body p

theorem text_JO_GetBool (j : JO) (p : _) :
    Call fl (go% JO.GetBool) [.bytes j.body] p (addBody j.body (oneVal .bool (.bool false) (GetBool j.body p))) := by
  jo_read Src.JO.GetBool, (oneVal .bool (.bool false) (GetBool j.body p)), text_GetBool fl j.body p

theorem text_JO_GetStringArray (j : JO) (p : _) :
    Call fl (go% JO.GetStringArray) [.bytes j.body] p (addBody j.body (oneVal .strs .nil (GetStringArray j.body p))) := by
  jo_read Src.JO.GetStringArray, (oneVal .strs .nil (GetStringArray j.body p)), text_GetStringArray fl j.body p

theorem text_JO_GetIntArray (j : JO) (p : _) :
    Call fl (go% JO.GetIntArray) [.bytes j.body] p (addBody j.body (oneVal .ints .nil (GetIntArray j.body p))) := by
  jo_read Src.JO.GetIntArray, (oneVal .ints .nil (GetIntArray j.body p)), text_GetIntArray fl j.body p

theorem text_JO_GetFloatArray (j : JO) (p : _) :
    Call fl (go% JO.GetFloatArray) [.bytes j.body] p (addBody j.body (oneVal .floats .nil (GetFloatArray fl j.body p))) := by
  jo_read Src.JO.GetFloatArray, (oneVal .floats .nil (GetFloatArray fl j.body p)), text_GetFloatArray fl j.body p

theorem text_JO_GetBoolArray (j : JO) (p : _) :
    Call fl (go% JO.GetBoolArray) [.bytes j.body] p (addBody j.body (oneVal .bools .nil (GetBoolArray j.body p))) := by
  jo_read Src.JO.GetBoolArray, (oneVal .bools .nil (GetBoolArray j.body p)), text_GetBoolArray fl j.body p

theorem text_JO_GetAll (j : JO) (keys p : _) :
    Call fl (go% JO.GetAll) [.bytes j.body, .strs keys] p (addBody j.body (oneVal .strs .nil (GetAll j.body keys p))) := by
  jo_read Src.JO.GetAll, (oneVal .strs .nil (GetAll j.body keys p)), text_GetAll fl j.body p keys

theorem text_JO_GetKeys (j : JO) (p : _) :
    Call fl (go% JO.GetKeys) [.bytes j.body] p (addBody j.body (oneVal nilStrs .nil (GetKeys j.body p))) := by
  jo_read Src.JO.GetKeys, (oneVal nilStrs .nil (GetKeys j.body p)), text_GetKeys fl j.body p

theorem text_JO_GetValues (j : JO) (p : _) :
    Call fl (go% JO.GetValues) [.bytes j.body] p (addBody j.body (oneVal nilStrs .nil (GetValues j.body p))) := by
  jo_read Src.JO.GetValues, (oneVal nilStrs .nil (GetValues j.body p)), text_GetValues fl j.body p

theorem text_JO_GetKeysValues (j : JO) (p : _) :
    Call fl (go% JO.GetKeysValues) [.bytes j.body] p (addBody j.body (pairVals (GetKeysValues j.body p))) := by
  have h1 := three_pairVals (GetKeysValues j.body p)
  have h0 := text_GetKeysValues fl j.body p
  revert h0 h1
  generalize pairVals (GetKeysValues j.body p) = r
  intro h1 h0
  refine Call.lift h0 (g := Src.JO.GetKeysValues) (ps := [_]) rfl rfl rfl rfl fun fuel d h => ?_
  simp only [List.cons_append, List.nil_append] at h ⊢
  rw [fn_run (g := Src.JO.GetKeysValues) rfl]
  rcases h1 with ⟨a, b, e, hr⟩ | hr <;> subst hr <;> run_go [Func.run, Src.JO.GetKeysValues, bindParams, h, addBody]

theorem text_JO_IsObject (j : JO) (p : _) :
    Call fl (go% JO.IsObject) [.bytes j.body] p (addBody j.body (oneVal .bool (.bool false) (IsObject j.body p))) := by
  jo_read Src.JO.IsObject, (oneVal .bool (.bool false) (IsObject j.body p)), text_IsObject fl j.body p

theorem text_JO_IsArray (j : JO) (p : _) :
    Call fl (go% JO.IsArray) [.bytes j.body] p (addBody j.body (oneVal .bool (.bool false) (IsArray j.body p))) := by
  jo_read Src.JO.IsArray, (oneVal .bool (.bool false) (IsArray j.body p)), text_IsArray fl j.body p

theorem text_JO_IsValue (j : JO) (p : _) :
    Call fl (go% JO.IsValue) [.bytes j.body] p (addBody j.body (oneVal .bool (.bool false) (IsValue j.body p))) := by
  jo_read Src.JO.IsValue, (oneVal .bool (.bool false) (IsValue j.body p)), text_IsValue fl j.body p

theorem text_JO_IsEmpty (j : JO) (p : _) :
    Call fl (go% JO.IsEmpty) [.bytes j.body] p (addBody j.body (oneVal .bool (.bool false) (IsEmpty j.body p))) := by
  jo_read Src.JO.IsEmpty, (oneVal .bool (.bool false) (IsEmpty j.body p)), text_IsEmpty fl j.body p

theorem text_JO_GetType (j : JO) (p : _) :
    Call fl (go% JO.GetType) [.bytes j.body] p (addBody j.body (oneVal (fun t => .bytes (typeName t)) (.bytes []) (GetType (fun s => (fl.parse s).isSome) j.body p))) := by
  jo_read Src.JO.GetType, (oneVal (fun t => .bytes (typeName t)) (.bytes []) (GetType (fun s => (fl.parse s).isSome) j.body p)), text_GetType fl j.body p

/-! ### Making an object and taking it back -/

theorem text_New (b : Bytes) : Call1 fl (go% New) [.bytes b] (.ok [.bytes (New b).body]) :=
  Call1.of 0 1 fun _ _ _ => by rw [fn_run (g := Src.New) rfl]; run_go [Func.run, Src.New, bindParams, New]

theorem text_NewJSON : Call1 fl (go% NewJSON) [] (.ok [.bytes NewJSON.body]) :=
  Call1.of 0 1 fun _ _ _ => by rw [fn_run (g := Src.NewJSON) rfl]; run_go [Func.run, Src.NewJSON, bindParams, NewJSON]

theorem text_JO_JSON (j : JO) : Call1 fl (go% JO.JSON) [.bytes j.body] (.ok [.bytes j.body, .bytes j.body]) :=
  Call1.of 0 1 fun _ _ _ => by rw [fn_run (g := Src.JO.JSON) rfl]; run_go [Func.run, Src.JO.JSON, bindParams]

theorem text_JO_String (j : JO) : Call1 fl (go% JO.String) [.bytes j.body] (.ok [.bytes j.body, .bytes j.body]) :=
  Call1.of 0 1 fun _ _ _ => by rw [fn_run (g := Src.JO.String) rfl]; run_go [Func.run, Src.JO.String, bindParams]

end

end Jin.Go
