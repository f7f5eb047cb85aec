import Verif.Go.Maps
import Verif.Props.Bytes
/-!
# Go.Scheme — running the text of `Scheme`, /repo/make.go:12-161

A pointer to a `Scheme` is read as its two fields: a method gets them and returns them before its own results.
-/

namespace Jin.Go

/-- A slice of strings that may be nil. -/
def nilKeys : Bool → List Bytes → Val
  | true, _ => .nil
  | false, ks => .strs ks

/-- The fields of a scheme. -/
def schemeVals (s : Scheme) : List Val := [nilKeys s.originalNil s.originalKeys, nilKeys s.keysNil s.keys]

/-- A nil slice has no element. -/
def SchemeOk (s : Scheme) : Prop := (s.originalNil = true → s.originalKeys = []) ∧ (s.keysNil = true → s.keys = [])

theorem SchemeOk.keys {s : Scheme} (h : SchemeOk s) : (s.keysNil = true ∧ s.keys = []) ∨ s.keysNil = false := by
  cases hk : s.keysNil with
  | true => exact .inl ⟨rfl, h.2 hk⟩
  | false => exact .inr rfl

/-- What a nil slice and an empty one have in common. -/
theorem SchemeOk.same {s : Scheme} (h : SchemeOk s) :
    Val.items (nilKeys s.keysNil s.keys) = .ok (s.keys.mapIdx fun i c => (.int i, .bytes c)) ∧ Val.len (nilKeys s.keysNil s.keys) = .ok s.keys.length ∧
    (∀ b, Val.append (nilKeys s.keysNil s.keys) (.bytes b) = .ok (.strs (s.keys ++ [b]))) ∧
    (∀ (i : Nat) b, s.keys[i]? = some b → Val.index (nilKeys s.keysNil s.keys) (.int i) = .ok (.bytes b)) := by
  rcases h.keys with ⟨h1, h2⟩ | h1
  · rw [h1, h2]; exact ⟨rfl, rfl, fun _ => rfl, fun i b h => by simp at h⟩
  · rw [h1]; refine ⟨rfl, rfl, fun _ => rfl, fun i b h => ?_⟩
    show Val.index (.strs s.keys) (.int i) = _
    run_go [idx_nat, h]

section
variable {fl : FloatLib UInt64} {fuel d : Nat} {sp : Bool} {json : Bytes}

/-! ### Add and Remove -/

theorem schAdd_for1 (o k0 : Val) (key : Bytes) (ks : List Bytes) (f : Nat → Val) :
    rangeN 0 (go% k) (fun s => exec (ctx fl fuel d) fuel Src.Scheme.Add.body1 s) (ks.mapIdx fun i c => (f i, .bytes c)) ⟨(), [(go% s.originalKeys, o), (go% s.keys, k0), (go% key, .bytes key)]⟩ =
      if ks.contains key then .ret () [o, k0, .bool false] else .norm ⟨(), [(go% s.originalKeys, o), (go% s.keys, k0), (go% key, .bytes key)]⟩ := by
  induction ks generalizing f with
  | nil => rfl
  | cons k ks ih =>
    have ih := ih fun i => f (i + 1)
    have hc : (k :: ks).contains key = ((k == key) || ks.contains key) := by rw [List.contains_cons, BEq.comm]
    have e : exec (ctx fl fuel d) fuel Src.Scheme.Add.body1 ⟨(), [(go% k, .bytes k), (0, .nil), (go% s.originalKeys, o), (go% s.keys, k0), (go% key, .bytes key)]⟩ =
        if k == key then .ret () [o, k0, .bool false] else .norm ⟨(), [(go% k, .bytes k), (0, .nil), (go% s.originalKeys, o), (go% s.keys, k0), (go% key, .bytes key)]⟩ := by
      cases h : k == key <;> run_go [Src.Scheme.Add.body1, h]
    rw [List.mapIdx_cons, rangeN, hc]
    cases h : k == key <;> rw [h] at e <;> run_go [Env.new, e, ih, Bool.false_or, Bool.true_or]

theorem run_Scheme_Add (s : Scheme) (hs : SchemeOk s) (key : Bytes) :
    (jin fl).fn fuel (d + 1) (go% Scheme.Add) false (schemeVals s ++ [.bytes key]) = .ok (schemeVals (s.Add key).1 ++ [.bool (s.Add key).2]) := by
  rw [fn_run (g := Src.Scheme.Add) rfl]
  have e := schAdd_for1 (fl := fl) (fuel := fuel) (d := d) (nilKeys s.originalNil s.originalKeys) (nilKeys s.keysNil s.keys) key s.keys fun i => .int i
  obtain ⟨h1, h2, h3, -⟩ := hs.same
  cases h : s.keys.contains key <;> rw [h] at e <;> 
    run_go [Func.run, bindParams, Src.Scheme.Add, Src.Scheme.Add.for1, schemeVals, h, h1, h2, h3, e, Scheme.Add, List.cons_append, List.nil_append, nilKeys.eq_2]

theorem schRemove_for1 (o k0 : Val) (key : Bytes) (ks nk : List Bytes) (r : Bool) (f : Nat → Val) :
    rangeN 0 (go% k) (fun s => exec (ctx fl fuel d) fuel Src.Scheme.Remove.body1 s) (ks.mapIdx fun i c => (f i, .bytes c))
        ⟨(), [(go% result, .bool r), (go% newKeys, .strs nk), (0, .nil), (go% s.originalKeys, o), (go% s.keys, k0), (go% key, .bytes key)]⟩ =
      .norm ⟨(), [(go% result, .bool (r || ks.contains key)), (go% newKeys, .strs (nk ++ ks.filter fun k => !(k == key))), (0, .nil), (go% s.originalKeys, o), (go% s.keys, k0), (go% key, .bytes key)]⟩ := by
  induction ks generalizing f nk r with
  | nil => simp [rangeN]
  | cons k ks ih =>
    have hc : (k :: ks).contains key = ((k == key) || ks.contains key) := by rw [List.contains_cons, BEq.comm]
    have e : exec (ctx fl fuel d) fuel Src.Scheme.Remove.body1 ⟨(), [(go% k, .bytes k), (0, .nil), (go% result, .bool r), (go% newKeys, .strs nk), (0, .nil), (go% s.originalKeys, o), (go% s.keys, k0), (go% key, .bytes key)]⟩ =
        .norm ⟨(), [(go% k, .bytes k), (0, .nil), (go% result, .bool (r || (k == key))), (go% newKeys, .strs (nk ++ [k].filter fun k => !(k == key))), (0, .nil), (go% s.originalKeys, o), (go% s.keys, k0), (go% key, .bytes key)]⟩ := by
      cases h : k == key <;> run_go [Src.Scheme.Remove.body1, h, bne, Bool.not_false, Bool.not_true, Bool.or_true, Bool.or_false, List.filter, List.append_nil]
    rw [List.mapIdx_cons, rangeN, hc]
    have ih := ih (nk ++ [k].filter fun k => !(k == key)) (r || (k == key)) fun i => f (i + 1)
    have ef : (k :: ks).filter (fun k => !(k == key)) = [k].filter (fun k => !(k == key)) ++ ks.filter fun k => !(k == key) := by
      rw [← List.filter_append]; rfl
    rw [ef, ← List.append_assoc, ← Bool.or_assoc]
    run_go [Env.new, e, ih]

theorem run_Scheme_Remove (s : Scheme) (hs : SchemeOk s) (key : Bytes) :
    (jin fl).fn fuel (d + 1) (go% Scheme.Remove) false (schemeVals s ++ [.bytes key]) = .ok (schemeVals (s.Remove key).1 ++ [.bool (s.Remove key).2]) := by
  rw [fn_run (g := Src.Scheme.Remove) rfl]
  have e := schRemove_for1 (fl := fl) (fuel := fuel) (d := d) (nilKeys s.originalNil s.originalKeys) (nilKeys s.keysNil s.keys) key s.keys [] false fun i => .int i
  obtain ⟨h1, h2, h3, -⟩ := hs.same
  have hn : ¬ ((s.keys.length : Int) < 0) := by omega
  run_go [Func.run, bindParams, Src.Scheme.Remove, Src.Scheme.Remove.for1, schemeVals, h1, h2, hn, e, Scheme.Remove, List.cons_append, List.nil_append, nilKeys.eq_2, Bool.false_or]

theorem run_Scheme_Save (s : Scheme) :
    (jin fl).fn fuel (d + 1) (go% Scheme.Save) false (schemeVals s) = .ok (schemeVals s.Save) := by
  rw [fn_run (g := Src.Scheme.Save) rfl]
  run_go [Func.run, bindParams, Src.Scheme.Save, schemeVals, Scheme.Save]

theorem run_Scheme_Restore (s : Scheme) :
    (jin fl).fn fuel (d + 1) (go% Scheme.Restore) false (schemeVals s) = .ok (schemeVals s.Restore) := by
  rw [fn_run (g := Src.Scheme.Restore) rfl]
  run_go [Func.run, bindParams, Src.Scheme.Restore, schemeVals, Scheme.Restore]

theorem run_Scheme_GetOriginalKeys (s : Scheme) :
    (jin fl).fn fuel (d + 1) (go% Scheme.GetOriginalKeys) false (schemeVals s) = .ok (schemeVals s ++ [nilKeys s.originalNil s.originalKeys]) := by
  rw [fn_run (g := Src.Scheme.GetOriginalKeys) rfl]
  run_go [Func.run, bindParams, Src.Scheme.GetOriginalKeys, schemeVals, List.cons_append, List.nil_append]

theorem run_Scheme_GetCurrentKeys (s : Scheme) :
    (jin fl).fn fuel (d + 1) (go% Scheme.GetCurrentKeys) false (schemeVals s) = .ok (schemeVals s ++ [nilKeys s.keysNil s.keys]) := by
  rw [fn_run (g := Src.Scheme.GetCurrentKeys) rfl]
  run_go [Func.run, bindParams, Src.Scheme.GetCurrentKeys, schemeVals, List.cons_append, List.nil_append]


/-- A call with the strings given one by one. -/
theorem fn_each {f : Id} {g : Func} {ps : List Id} {x : Id} (args : List Val) (path : List Bytes)
    (hg : (jin fl).funcs.find? (fun g => g.name == f) = some g) (hv : g.variadic = true) (hp : g.params = ps ++ [x]) (hl : ps.length = args.length) :
    (jin fl).fn fuel (d + 1) f false (args ++ path.map .bytes) = (jin fl).fn fuel (d + 1) f true (args ++ [.strs path]) := by
  rw [fn_run hg, fn_run hg, Func.run, Func.run, hv, hp, bindParams_path ps x args path hl]

/-! ### Check and CheckAbs -/

theorem run_Get1 (k : Bytes) (hf : need json [k] < fuel) :
    (jin fl).fn fuel (d + 3) (go% Get) false [.bytes json, .bytes k] = oneVal .bytes .nil (Get json [k]) := by
  rw [← run_Get hf]
  exact fn_each (d := d + 2) [.bytes json] [k] (g := Src.Get) (ps := [_]) rfl rfl rfl rfl

theorem schCheck_for1 (o k0 : Val) (ks : List Bytes) (hf : ∀ k ∈ ks, need json [k] < fuel) (f : Nat → Val) :
    rangeN 0 (go% k) (fun s => exec (ctx fl fuel (d + 3)) fuel Src.Scheme.Check.body1 s) (ks.mapIdx fun i c => (f i, .bytes c)) ⟨(), [(go% s.originalKeys, o), (go% s.keys, k0), (go% json, .bytes json)]⟩ =
      match schemeCheck json ks with
      | .ok true => .norm ⟨(), [(go% s.originalKeys, o), (go% s.keys, k0), (go% json, .bytes json)]⟩
      | .ok false => .ret () [o, k0, .bool false]
      | _ => .panic := by
  induction ks generalizing f with
  | nil => rfl
  | cons k ks ih =>
    have ih := ih (fun k' h => hf k' (List.mem_cons_of_mem _ h)) fun i => f (i + 1)
    have hk := hf k List.mem_cons_self
    have e : exec (ctx fl fuel (d + 3)) fuel Src.Scheme.Check.body1 ⟨(), [(go% k, .bytes k), (0, .nil), (go% s.originalKeys, o), (go% s.keys, k0), (go% json, .bytes json)]⟩ =
        match Get json [k] with
        | .ok _ => .norm ⟨(), [(go% k, .bytes k), (0, .nil), (go% s.originalKeys, o), (go% s.keys, k0), (go% json, .bytes json)]⟩
        | .err _ => .ret () [o, k0, .bool false]
        | .panic => .panic := by
      cases h : Get json [k] <;> run_go [Src.Scheme.Check.body1, run_Get1 k hk, h, oneVal]
    rw [List.mapIdx_cons, rangeN]
    cases h : Get json [k] <;> rw [h] at e <;> run_go [Env.new, e, ih, schemeCheck, h]

/-- What a method that returns a boolean returns. -/
def schemeBool (s : Scheme) : Out Bool → R (List Val)
  | .ok b => .ok (schemeVals s ++ [.bool b])
  | .err _ => .stuck
  | .panic => .panic

theorem schemeCheck_noErr (json : Bytes) (ks : List Bytes) (e : Err) : schemeCheck json ks ≠ .err e := by
  induction ks with
  | nil => simp [schemeCheck]
  | cons k ks ih => rw [schemeCheck]; split <;> simp_all

theorem run_Scheme_Check (s : Scheme) (hs : SchemeOk s) (hf : ∀ k ∈ s.keys, need json [k] < fuel) :
    (jin fl).fn fuel (d + 4) (go% Scheme.Check) false (schemeVals s ++ [.bytes json]) = schemeBool s (s.Check json) := by
  rw [fn_run (g := Src.Scheme.Check) rfl]
  have e := schCheck_for1 (fl := fl) (d := d) (nilKeys s.originalNil s.originalKeys) (nilKeys s.keysNil s.keys) s.keys hf fun i => .int i
  obtain ⟨h1, -⟩ := hs.same
  have h2 : s.Check json = schemeCheck json s.keys := rfl
  rcases h : schemeCheck json s.keys with ⟨_ | _⟩ | e' | _
  · rw [h] at e; run_go [Func.run, bindParams, Src.Scheme.Check, Src.Scheme.Check.for1, schemeVals, schemeBool, h, h1, h2, e, List.cons_append, List.nil_append]
  · rw [h] at e; run_go [Func.run, bindParams, Src.Scheme.Check, Src.Scheme.Check.for1, schemeVals, schemeBool, h, h1, h2, e, List.cons_append, List.nil_append]
  · exact absurd h (schemeCheck_noErr _ _ _)
  · rw [h] at e; run_go [Func.run, bindParams, Src.Scheme.Check, Src.Scheme.Check.for1, schemeVals, schemeBool, h, h1, h2, e, List.cons_append, List.nil_append]

theorem contains_drop {ks : List Bytes} {j : Nat} (h : j < ks.length) (key : Bytes) :
    (ks.drop j).contains key = ((key == ks[j]) || (ks.drop (j + 1)).contains key) := by
  rw [List.drop_eq_getElem_cons h, List.contains_cons]

theorem schAbs_for2 (o k0 kv : Val) (ks : List Bytes) (i : Nat) (key : Bytes) (hl : Val.len k0 = .ok ks.length)
    (hi : ∀ (j : Nat) b, ks[j]? = some b → Val.index k0 (.int j) = .ok (.bytes b)) (hf : ks.length < fuel) :
    exec (ctx fl fuel d) fuel Src.Scheme.CheckAbs.for2 ⟨(), [(go% key, .bytes key), (go% has, .bool false), (0, .nil), (go% i, .int i), (0, .nil), (go% err, .nil), (go% keys, kv), (0, .nil), (go% s.originalKeys, o), (go% s.keys, k0), (go% json, .bytes json)]⟩ = .norm ⟨(), [(go% key, .bytes key), (go% has, .bool (ks.contains key)), (0, .nil), (go% i, .int i), (0, .nil), (go% err, .nil), (go% keys, kv), (0, .nil), (go% s.originalKeys, o), (go% s.keys, k0), (go% json, .bytes json)]⟩ := by
  have e : ∀ n j, ks.length - j < n → j ≤ ks.length → ∃ j' : Nat,
      loopN (fun s => (eval (ctx fl fuel d) s.env (.bin .lt (.var (go% j)) (.len (.var (go% s.keys))))).bind Val.bool?)
        (fun s => exec (ctx fl fuel d) fuel (.assign (go% j) (.bin .add (.var (go% j)) (.lit (.int 1)))) s)
        (fun s => exec (ctx fl fuel d) fuel Src.Scheme.CheckAbs.body2 s) n ⟨(), [(go% j, .int j), (0, .nil), (go% key, .bytes key), (go% has, .bool false), (0, .nil), (go% i, .int i), (0, .nil), (go% err, .nil), (go% keys, kv), (0, .nil), (go% s.originalKeys, o), (go% s.keys, k0), (go% json, .bytes json)]⟩ =
      .norm ⟨(), [(go% j, .int j'), (0, .nil), (go% key, .bytes key), (go% has, .bool ((ks.drop j).contains key)), (0, .nil), (go% i, .int i), (0, .nil), (go% err, .nil), (go% keys, kv), (0, .nil), (go% s.originalKeys, o), (go% s.keys, k0), (go% json, .bytes json)]⟩ := by
    intro n
    induction n with
    | zero => intro j h; omega
    | succ n ih =>
      intro j hn hj
      by_cases h : j < ks.length
      · have hx := hi j ks[j] (List.getElem?_eq_getElem h)
        have hlt : ((j : Int) < ks.length) = True := by simp [h]
        rw [contains_drop h]
        cases hk : key == ks[j]
        · obtain ⟨j', ih⟩ := ih (j + 1) (by omega) (by omega)
          refine ⟨j', ?_⟩
          rw [loopN_goes (t := ⟨(), [(go% j, .int j), (0, .nil), (go% key, .bytes key), (go% has, .bool false), (0, .nil), (go% i, .int i), (0, .nil), (go% err, .nil), (go% keys, kv), (0, .nil), (go% s.originalKeys, o), (go% s.keys, k0), (go% json, .bytes json)]⟩) (by run_go [hl, hlt, decide_true]) (by run_go [Src.Scheme.CheckAbs.body2, hx, hk, Res.goes])]
          rw [Bool.false_or, ← ih]
          run_go []
          rfl
        · refine ⟨j, ?_⟩
          rw [loopN_brk (t := ⟨(), [(go% j, .int j), (0, .nil), (go% key, .bytes key), (go% has, .bool true), (0, .nil), (go% i, .int i), (0, .nil), (go% err, .nil), (go% keys, kv), (0, .nil), (go% s.originalKeys, o), (go% s.keys, k0), (go% json, .bytes json)]⟩) (by run_go [hl, hlt, decide_true]) (by run_go [Src.Scheme.CheckAbs.body2, hx, hk])]
          rfl
      · refine ⟨j, ?_⟩
        have hlt : ((j : Int) < ks.length) = False := by simp [h]
        rw [loopN_end (by run_go [hl, hlt, decide_false]), List.drop_eq_nil_of_le (by omega)]
        rfl
  obtain ⟨j', e⟩ := e fuel 0 (by omega) (by omega)
  rw [List.drop_zero] at e
  run_go [Src.Scheme.CheckAbs.for2]
  erw [e]
  run_go []

theorem schAbs_for1 (o k0 kv : Val) (ks keys : List Bytes) (hl : Val.len k0 = .ok ks.length)
    (hi : ∀ (j : Nat) b, ks[j]? = some b → Val.index k0 (.int j) = .ok (.bytes b)) (hf : ks.length < fuel) (hl' : Val.len kv = .ok keys.length)
    (hi' : ∀ (j : Nat) b, keys[j]? = some b → Val.index kv (.int j) = .ok (.bytes b)) (hf' : keys.length < fuel) :
    exec (ctx fl fuel d) fuel Src.Scheme.CheckAbs.for1 ⟨(), [(go% err, .nil), (go% keys, kv), (0, .nil), (go% s.originalKeys, o), (go% s.keys, k0), (go% json, .bytes json)]⟩ =
      if keys.all fun k => ks.contains k then .norm ⟨(), [(go% err, .nil), (go% keys, kv), (0, .nil), (go% s.originalKeys, o), (go% s.keys, k0), (go% json, .bytes json)]⟩ else .ret () [o, k0, .bool false] := by
  have e : ∀ n i, keys.length - i < n → i ≤ keys.length →
      (loopN (fun s => (eval (ctx fl fuel d) s.env (.bin .lt (.var (go% i)) (.len (.var (go% keys))))).bind Val.bool?)
        (fun s => exec (ctx fl fuel d) fuel (.assign (go% i) (.bin .add (.var (go% i)) (.lit (.int 1)))) s)
        (fun s => exec (ctx fl fuel d) fuel Src.Scheme.CheckAbs.body1 s) n ⟨(), [(go% i, .int i), (0, .nil), (go% err, .nil), (go% keys, kv), (0, .nil), (go% s.originalKeys, o), (go% s.keys, k0), (go% json, .bytes json)]⟩).leave =
      if (keys.drop i).all fun k => ks.contains k then .norm ⟨(), [(go% err, .nil), (go% keys, kv), (0, .nil), (go% s.originalKeys, o), (go% s.keys, k0), (go% json, .bytes json)]⟩ else .ret () [o, k0, .bool false] := by
    intro n
    induction n with
    | zero => intro j h; omega
    | succ n ih =>
      intro i hn hj
      by_cases h : i < keys.length
      · have hx := hi' i keys[i] (List.getElem?_eq_getElem h)
        have hlt : ((i : Int) < keys.length) = True := by simp [h]
        have h2 := schAbs_for2 (fl := fl) (d := d) (json := json) o k0 kv ks i keys[i] hl hi hf
        rw [List.drop_eq_getElem_cons h, List.all_cons]
        cases hk : ks.contains keys[i] <;> rw [hk] at h2
        · rw [loopN_ends (by run_go [hl', hlt, decide_true]) (by run_go [Src.Scheme.CheckAbs.body1, hx, h2, Res.ends])]
          run_go [Src.Scheme.CheckAbs.body1, hx, h2, Bool.false_and]
        · have ih := ih (i + 1) (by omega) (by omega)
          rw [loopN_goes (t := ⟨(), [(go% i, .int i), (0, .nil), (go% err, .nil), (go% keys, kv), (0, .nil), (go% s.originalKeys, o), (go% s.keys, k0), (go% json, .bytes json)]⟩) (by run_go [hl', hlt, decide_true]) (by run_go [Src.Scheme.CheckAbs.body1, hx, h2, Res.goes])]
          rw [Bool.true_and, ← ih]
          run_go []
          rfl
      · have hlt : ((i : Int) < keys.length) = False := by simp [h]
        rw [loopN_end (by run_go [hl', hlt, decide_false]), List.drop_eq_nil_of_le (by omega)]
        run_go [List.all_nil]
  have e := e fuel 0 (by omega) (by omega)
  rw [List.drop_zero] at e
  run_go [Src.Scheme.CheckAbs.for1]
  exact e

theorem len_nilStrs (l : List Bytes) : Val.len (nilStrs l) = .ok l.length := by cases l <;> rfl
theorem index_nilStrs (l : List Bytes) (i : Nat) (b : Bytes) (h : l[i]? = some b) : Val.index (nilStrs l) (.int i) = .ok (.bytes b) := by
  cases l with
  | nil => simp at h
  | cons a l => show Val.index (.strs _) _ = _; run_go [idx_nat, h]

theorem run_Scheme_CheckAbs (s : Scheme) (hs : SchemeOk s) (hf : need json [] + s.keys.length < fuel) :
    (jin fl).fn fuel (d + 5) (go% Scheme.CheckAbs) false (schemeVals s ++ [.bytes json]) = schemeBool s (s.CheckAbs json) := by
  rw [fn_run (g := Src.Scheme.CheckAbs) rfl]
  have hk : (jin fl).fn fuel (d + 4) (go% GetKeys) false [.bytes json] = oneVal nilStrs .nil (GetKeys json []) := by
    have hg := run_GetKeys (fl := fl) (d := d) (json := json) (path := []) (fuel := fuel) (by omega)
    rw [← hg]
    exact fn_each (d := d + 3) [.bytes json] [] (g := Src.GetKeys) (ps := [_]) rfl rfl rfl rfl
  obtain ⟨-, h2, -, h4⟩ := hs.same
  cases h : GetKeys json [] with
  | err e => run_go [Func.run, bindParams, Src.Scheme.CheckAbs, schemeVals, schemeBool, Scheme.CheckAbs, hk, h, oneVal, List.cons_append, List.nil_append]
  | panic => run_go [Func.run, bindParams, Src.Scheme.CheckAbs, schemeVals, schemeBool, Scheme.CheckAbs, hk, h, oneVal, List.cons_append, List.nil_append]
  | ok keys =>
    cases hl : keys.length == s.keys.length
    · have hl' : ((keys.length : Int) == s.keys.length) = false := by rw [beq_eq_false_iff_ne] at *; omega
      run_go [Func.run, bindParams, Src.Scheme.CheckAbs, schemeVals, schemeBool, Scheme.CheckAbs, hk, h, oneVal, List.cons_append, List.nil_append, len_nilStrs, h2, hl, hl', bne, Bool.not_false]
    · have hl0 := beq_iff_eq.1 hl
      have hl' : ((keys.length : Int) == s.keys.length) = true := by rw [beq_iff_eq]; omega
      have e := schAbs_for1 (fl := fl) (d := d + 4) (json := json) (nilKeys s.originalNil s.originalKeys) (nilKeys s.keysNil s.keys) (nilStrs keys) s.keys keys h2 h4 (by omega)
        (len_nilStrs keys) (index_nilStrs keys) (fuel := fuel) (by omega)
      cases ha : keys.all fun k => s.keys.contains k <;> rw [ha] at e <;>
        run_go [Func.run, bindParams, Src.Scheme.CheckAbs, schemeVals, schemeBool, Scheme.CheckAbs, hk, h, oneVal, List.cons_append, List.nil_append, len_nilStrs, h2, hl, hl', bne, Bool.not_true, e, ha]

/-! ### MutateJson and MutateJsonAbs -/

/-- A slice of bytes that is nil when it is empty. -/
def nilBytes : Bytes → Val
  | [] => .nil
  | b => .bytes b

theorem nilBytes_some {b : Bytes} (h : b ≠ []) : nilBytes b = .bytes b := by cases b with | nil => exact absurd rfl h | cons => rfl

/-- What `AddKeyValueString` returns, where nil for an empty slice. -/
def mutNil : Mut → R (List Val)
  | .done b e => .ok [nilBytes b, errVal e]
  | .panic => .panic

theorem addString_keeps {isFloat : Bytes → Bool} {acc k v r : Bytes} {e : Option Err} (ha : acc ≠ []) (hk : (k.length == 0) = false)
    (h : AddKeyValueString isFloat acc k v [] = .done r e) : r ≠ [] := by
  rw [AddKeyValueString, hk, if_neg Bool.false_ne_true] at h
  cases e with
  | some e => rw [keeps_addKeyValue _ _ _ _ r e h]; exact ha
  | none =>
    obtain ⟨a, b, -, -, h⟩ := C71_addKeyValue h
    rcases h with rfl | rfl <;> simp

theorem run_addNil {fuel d : Nat} (k v : Bytes) (hk : (k.length == 0) = false) :
    (jin fl).fn fuel (d + 5) (go% AddKeyValueString) false [.nil, .bytes k, .bytes v] = .ok [.nil, .err (.badJSON 0)] := by
  have h1 : ∀ d' v, (jin fl).fn fuel (d' + 2) (go% AddKeyValue) true [.nil, .bytes k, .bytes v, .strs []] = .ok [.nil, .err (.badJSON 0)] := by
    intro d' v
    rw [fn_run (g := Src.AddKeyValue) rfl]
    run_go [Func.run, Src.AddKeyValue, bindParams]
  rw [fn_run (g := Src.AddKeyValueString) rfl]
  run_go [Func.run, Src.AddKeyValueString, bindParams, hk, h1, strings]

/-- `GetString(json, k)` and `AddKeyValueString(acc, k, v)`, where `acc` is nil if it is empty -/
theorem mutate_calls (json acc k v : Bytes) : ∃ N, ∀ fuel d, N ≤ fuel → N ≤ d →
    (jin fl).fn fuel (d + 5) (go% GetString) false [.bytes json, .bytes k] = oneVal .bytes (.bytes []) (GetString json [k]) ∧
    (jin fl).fn fuel (d + 5) (go% AddKeyValueString) false [nilBytes acc, .bytes k, .bytes v] = mutNil (AddKeyValueString (fun s => (fl.parse s).isSome) acc k v []) := by
  obtain ⟨N, h⟩ := text_GetString fl json [k]
  obtain ⟨M, h'⟩ := text_AddKeyValueString fl acc [] k v
  refine ⟨N + M, fun fuel d hf hd => ⟨(h fuel (d + 5) (by omega) (by omega)).2, ?_⟩⟩
  cases hk : k.length == 0 with
  | true =>
    rw [AddKeyValueString, if_pos hk]
    rw [fn_run (g := Src.AddKeyValueString) rfl]
    run_go [Func.run, Src.AddKeyValueString, bindParams, hk, if_true, strings, mutNil, nilBytes, errVal]
  | false =>
    by_cases ha : acc = []
    · subst ha
      rw [nilBytes, run_addNil k v hk]
      rw [AddKeyValueString, hk, if_neg Bool.false_ne_true]
      rfl
    · rw [nilBytes_some ha]
      have h' := (h' fuel (d + 5) (by omega) (by omega)).2
      rw [hk, if_neg Bool.false_ne_true] at h'
      refine h'.trans ?_
      cases h2 : AddKeyValueString (fun s => (fl.parse s).isSome) acc k v [] with
      | panic => rfl
      | done r e =>
        rw [mutNil, nilBytes_some (addString_keeps ha hk h2)]
        cases e <;> rfl

theorem schMutate_for1 (o k0 : Val) (ks : List Bytes) : ∀ (acc v : Bytes) (e e2 : Val) (f : Nat → Val), ∃ N, ∀ fuel d, N ≤ fuel → N ≤ d →
    match mutateLoop (fun s => (fl.parse s).isSome) json ks acc with
    | .ok (some r) => ∃ v' e' e2', rangeN 0 (go% k) (fun s => exec (ctx fl fuel (d + 5)) fuel Src.Scheme.MutateJson.body1 s) (ks.mapIdx fun i c => (f i, .bytes c)) ⟨(), [(go% val, .bytes v), (go% err2, e2), (go% err, e), (go% newJson, nilBytes acc), (0, .nil), (go% s.originalKeys, o), (go% s.keys, k0), (go% json, .bytes json)]⟩ = .norm ⟨(), [(go% val, .bytes v'), (go% err2, e2'), (go% err, e'), (go% newJson, nilBytes r), (0, .nil), (go% s.originalKeys, o), (go% s.keys, k0), (go% json, .bytes json)]⟩
    | .ok none => rangeN 0 (go% k) (fun s => exec (ctx fl fuel (d + 5)) fuel Src.Scheme.MutateJson.body1 s) (ks.mapIdx fun i c => (f i, .bytes c)) ⟨(), [(go% val, .bytes v), (go% err2, e2), (go% err, e), (go% newJson, nilBytes acc), (0, .nil), (go% s.originalKeys, o), (go% s.keys, k0), (go% json, .bytes json)]⟩ = .ret () [o, k0, .nil, .nil]
    | _ => rangeN 0 (go% k) (fun s => exec (ctx fl fuel (d + 5)) fuel Src.Scheme.MutateJson.body1 s) (ks.mapIdx fun i c => (f i, .bytes c)) ⟨(), [(go% val, .bytes v), (go% err2, e2), (go% err, e), (go% newJson, nilBytes acc), (0, .nil), (go% s.originalKeys, o), (go% s.keys, k0), (go% json, .bytes json)]⟩ = .panic := by
  induction ks with
  | nil => intro acc v e e2 f; exact ⟨0, fun fuel d _ _ => ⟨v, e, e2, rfl⟩⟩
  | cons k ks ih =>
    intro acc v e e2 f
    cases h1 : GetString json [k] with
    | panic =>
      obtain ⟨N, hc⟩ := mutate_calls (fl := fl) json acc k []
      refine ⟨N, fun fuel d hf hd => ?_⟩
      obtain ⟨c1, -⟩ := hc fuel d hf hd
      have hb : exec (ctx fl fuel (d + 5)) fuel Src.Scheme.MutateJson.body1 ⟨(), [(go% k, .bytes k), (0, .nil), (go% val, .bytes v), (go% err2, e2), (go% err, e), (go% newJson, nilBytes acc), (0, .nil), (go% s.originalKeys, o), (go% s.keys, k0), (go% json, .bytes json)]⟩ = .panic := by
        run_go [Src.Scheme.MutateJson.body1, c1, h1, oneVal]
      rw [List.mapIdx_cons, rangeN]
      run_go [mutateLoop, h1, Env.new, hb]
    | err x =>
      obtain ⟨N, hc⟩ := mutate_calls (fl := fl) json acc k (formatType (fun s => (fl.parse s).isSome) [])
      cases h2 : AddKeyValueString (fun s => (fl.parse s).isSome) acc k (formatType (fun s => (fl.parse s).isSome) []) [] with
      | panic =>
        refine ⟨N, fun fuel d hf hd => ?_⟩
        obtain ⟨c1, c2⟩ := hc fuel d hf hd
        have hb : exec (ctx fl fuel (d + 5)) fuel Src.Scheme.MutateJson.body1 ⟨(), [(go% k, .bytes k), (0, .nil), (go% val, .bytes v), (go% err2, e2), (go% err, e), (go% newJson, nilBytes acc), (0, .nil), (go% s.originalKeys, o), (go% s.keys, k0), (go% json, .bytes json)]⟩ = .panic := by
          run_go [Src.Scheme.MutateJson.body1, c1, h1, oneVal, c2, h2, mutNil, errVal]
        rw [List.mapIdx_cons, rangeN]
        run_go [mutateLoop, h1, h2, Env.new, hb]
      | done acc' o2 =>
        obtain ⟨M, ih⟩ := ih acc' (formatType (fun s => (fl.parse s).isSome) []) (.err x) (errVal o2) fun i => f (i + 1)
        refine ⟨N + M, fun fuel d hf hd => ?_⟩
        obtain ⟨c1, c2⟩ := hc fuel d (by omega) (by omega)
        have ih := ih fuel d (by omega) (by omega)
        have hb : exec (ctx fl fuel (d + 5)) fuel Src.Scheme.MutateJson.body1 ⟨(), [(go% k, .bytes k), (0, .nil), (go% val, .bytes v), (go% err2, e2), (go% err, e), (go% newJson, nilBytes acc), (0, .nil), (go% s.originalKeys, o), (go% s.keys, k0), (go% json, .bytes json)]⟩ =
            .norm ⟨(), [(go% k, .bytes k), (0, .nil), (go% val, .bytes (formatType (fun s => (fl.parse s).isSome) [])), (go% err2, (errVal o2)), (go% err, .err x), (go% newJson, nilBytes acc'), (0, .nil), (go% s.originalKeys, o), (go% s.keys, k0), (go% json, .bytes json)]⟩ := by
          cases o2 <;> run_go [Src.Scheme.MutateJson.body1, c1, h1, oneVal, c2, h2, mutNil, errVal]
        rw [List.mapIdx_cons, rangeN]
        run_go [mutateLoop, h1, h2, Env.new, hb]
        exact ih
    | ok x =>
      obtain ⟨N, hc⟩ := mutate_calls (fl := fl) json acc k (formatType (fun s => (fl.parse s).isSome) x)
      cases h2 : AddKeyValueString (fun s => (fl.parse s).isSome) acc k (formatType (fun s => (fl.parse s).isSome) x) [] with
      | panic =>
        refine ⟨N, fun fuel d hf hd => ?_⟩
        obtain ⟨c1, c2⟩ := hc fuel d hf hd
        have hb : exec (ctx fl fuel (d + 5)) fuel Src.Scheme.MutateJson.body1 ⟨(), [(go% k, .bytes k), (0, .nil), (go% val, .bytes v), (go% err2, e2), (go% err, e), (go% newJson, nilBytes acc), (0, .nil), (go% s.originalKeys, o), (go% s.keys, k0), (go% json, .bytes json)]⟩ = .panic := by
          run_go [Src.Scheme.MutateJson.body1, c1, h1, oneVal, c2, h2, mutNil, errVal]
        rw [List.mapIdx_cons, rangeN]
        run_go [mutateLoop, h1, h2, Env.new, hb]
      | done acc' o2 =>
        cases o2 with
        | some e3 =>
          refine ⟨N, fun fuel d hf hd => ?_⟩
          obtain ⟨c1, c2⟩ := hc fuel d hf hd
          have hb : exec (ctx fl fuel (d + 5)) fuel Src.Scheme.MutateJson.body1 ⟨(), [(go% k, .bytes k), (0, .nil), (go% val, .bytes v), (go% err2, e2), (go% err, e), (go% newJson, nilBytes acc), (0, .nil), (go% s.originalKeys, o), (go% s.keys, k0), (go% json, .bytes json)]⟩ = .ret () [o, k0, .nil, .nil] := by
            run_go [Src.Scheme.MutateJson.body1, c1, h1, oneVal, c2, h2, mutNil, errVal]
          rw [List.mapIdx_cons, rangeN]
          run_go [mutateLoop, h1, h2, Env.new, hb]
        | none =>
          obtain ⟨M, ih⟩ := ih acc' (formatType (fun s => (fl.parse s).isSome) x) .nil .nil fun i => f (i + 1)
          refine ⟨N + M, fun fuel d hf hd => ?_⟩
          obtain ⟨c1, c2⟩ := hc fuel d (by omega) (by omega)
          have ih := ih fuel d (by omega) (by omega)
          have hb : exec (ctx fl fuel (d + 5)) fuel Src.Scheme.MutateJson.body1 ⟨(), [(go% k, .bytes k), (0, .nil), (go% val, .bytes v), (go% err2, e2), (go% err, e), (go% newJson, nilBytes acc), (0, .nil), (go% s.originalKeys, o), (go% s.keys, k0), (go% json, .bytes json)]⟩ =
              .norm ⟨(), [(go% k, .bytes k), (0, .nil), (go% val, .bytes (formatType (fun s => (fl.parse s).isSome) x)), (go% err2, .nil), (go% err, .nil), (go% newJson, nilBytes acc'), (0, .nil), (go% s.originalKeys, o), (go% s.keys, k0), (go% json, .bytes json)]⟩ := by
            run_go [Src.Scheme.MutateJson.body1, c1, h1, oneVal, c2, h2, mutNil, errVal]
          rw [List.mapIdx_cons, rangeN]
          run_go [mutateLoop, h1, h2, Env.new, hb]
          exact ih

theorem mutateLoop_noErr (isFloat : Bytes → Bool) (json : Bytes) (ks : List Bytes) (e : Err) : ∀ acc, mutateLoop isFloat json ks acc ≠ .err e := by
  induction ks with
  | nil => simp [mutateLoop]
  | cons k ks ih => intro acc; rw [mutateLoop]; repeat' (first | exact ih _ | split | simp)

/-- What `MutateJson` returns. -/
def schemeOpt (s : Scheme) : Out (Option Bytes) → R (List Val)
  | .ok (some r) => .ok (schemeVals s ++ [nilBytes r, .nil])
  | .ok none => .ok (schemeVals s ++ [.nil, .nil])
  | .err _ => .stuck
  | .panic => .panic

/-- `Scheme.MutateJson`, make.go:37-52.  Behind an empty key that is not in the document `newJson` is nil, and stays so. -/
theorem text_Scheme_MutateJson (s : Scheme) (hs : SchemeOk s) :
    Call1 fl (go% Scheme.MutateJson) (schemeVals s ++ [.bytes json]) (schemeOpt s (s.MutateJson (fun s => (fl.parse s).isSome) json)) := by
  obtain ⟨N, hN⟩ := schMutate_for1 (fl := fl) (json := json) (nilKeys s.originalNil s.originalKeys) (nilKeys s.keysNil s.keys) s.keys [123, 125] [] .nil .nil fun i => .int i
  refine ⟨N + 6, fun fuel depth hf hd => ?_⟩
  obtain ⟨d, rfl⟩ : ∃ d, depth = d + 5 + 1 := ⟨depth - 6, by omega⟩
  have e := hN fuel d (by omega) (by omega)
  rw [nilBytes_some (b := [123, 125]) (by simp)] at e
  rw [fn_run (g := Src.Scheme.MutateJson) rfl]
  obtain ⟨h1, -⟩ := hs.same
  have h2 : s.MutateJson (fun s => (fl.parse s).isSome) json = mutateLoop (fun s => (fl.parse s).isSome) json s.keys [123, 125] := rfl
  rcases h : mutateLoop (fun s => (fl.parse s).isSome) json s.keys [123, 125] with ⟨_ | r⟩ | x | _ <;> rw [h] at e
  · simp only at e
    run_go [Func.run, bindParams, Src.Scheme.MutateJson, Src.Scheme.MutateJson.for1, schemeVals, schemeOpt, h, h1, h2, e, List.cons_append, List.nil_append]
  · obtain ⟨v', e', e2', e⟩ := e
    run_go [Func.run, bindParams, Src.Scheme.MutateJson, Src.Scheme.MutateJson.for1, schemeVals, schemeOpt, h, h1, h2, e, List.cons_append, List.nil_append]
  · exact absurd h (mutateLoop_noErr _ _ _ _ _)
  · simp only at e
    run_go [Func.run, bindParams, Src.Scheme.MutateJson, Src.Scheme.MutateJson.for1, schemeVals, schemeOpt, h, h1, h2, e, List.cons_append, List.nil_append]

/-- `GetString(json, k)` and `AddKeyValueString(acc, k, v)`, for any key -/
theorem mutateAbs_calls (json acc k v : Bytes) : ∃ N, ∀ fuel d, N ≤ fuel → N ≤ d →
    (jin fl).fn fuel (d + 5) (go% GetString) false [.bytes json, .bytes k] = oneVal .bytes (.bytes []) (GetString json [k]) ∧
    (jin fl).fn fuel (d + 5) (go% AddKeyValueString) false [.bytes acc, .bytes k, .bytes v] =
      if k.length == 0 then .ok [.nil, .err .nullKey] else mutVals (AddKeyValueString (fun s => (fl.parse s).isSome) acc k v []) := by
  obtain ⟨N, h⟩ := text_GetString fl json [k]
  obtain ⟨M, h'⟩ := text_AddKeyValueString fl acc [] k v
  exact ⟨N + M, fun fuel d hf hd => ⟨(h fuel (d + 5) (by omega) (by omega)).2, (h' fuel (d + 5) (by omega) (by omega)).2⟩⟩

theorem schAbsMut_for1 (o k0 : Val) (ks : List Bytes) : ∀ (acc v : Bytes) (f : Nat → Val), ∃ N, ∀ fuel d, N ≤ fuel → N ≤ d →
    match mutateAbsLoop (fun s => (fl.parse s).isSome) json ks acc with
    | .ok r => ∃ v', rangeN 0 (go% k) (fun s => exec (ctx fl fuel (d + 5)) fuel Src.Scheme.MutateJsonAbs.body1 s) (ks.mapIdx fun i c => (f i, .bytes c)) ⟨(), [(go% val, .bytes v), (go% err, .nil), (go% newJson, .bytes acc), (0, .nil), (go% s.originalKeys, o), (go% s.keys, k0), (go% json, .bytes json)]⟩ = .norm ⟨(), [(go% val, .bytes v'), (go% err, .nil), (go% newJson, .bytes r), (0, .nil), (go% s.originalKeys, o), (go% s.keys, k0), (go% json, .bytes json)]⟩
    | .err e => rangeN 0 (go% k) (fun s => exec (ctx fl fuel (d + 5)) fuel Src.Scheme.MutateJsonAbs.body1 s) (ks.mapIdx fun i c => (f i, .bytes c)) ⟨(), [(go% val, .bytes v), (go% err, .nil), (go% newJson, .bytes acc), (0, .nil), (go% s.originalKeys, o), (go% s.keys, k0), (go% json, .bytes json)]⟩ = .ret () [o, k0, .nil, .err e]
    | .panic => rangeN 0 (go% k) (fun s => exec (ctx fl fuel (d + 5)) fuel Src.Scheme.MutateJsonAbs.body1 s) (ks.mapIdx fun i c => (f i, .bytes c)) ⟨(), [(go% val, .bytes v), (go% err, .nil), (go% newJson, .bytes acc), (0, .nil), (go% s.originalKeys, o), (go% s.keys, k0), (go% json, .bytes json)]⟩ = .panic := by
  induction ks with
  | nil => intro acc v f; exact ⟨0, fun fuel d _ _ => ⟨v, rfl⟩⟩
  | cons k ks ih =>
    intro acc v f
    cases h1 : GetString json [k] with
    | panic =>
      obtain ⟨N, hc⟩ := mutateAbs_calls (fl := fl) json acc k []
      refine ⟨N, fun fuel d hf hd => ?_⟩
      obtain ⟨c1, -⟩ := hc fuel d hf hd
      have hb : exec (ctx fl fuel (d + 5)) fuel Src.Scheme.MutateJsonAbs.body1 ⟨(), [(go% k, .bytes k), (0, .nil), (go% val, .bytes v), (go% err, .nil), (go% newJson, .bytes acc), (0, .nil), (go% s.originalKeys, o), (go% s.keys, k0), (go% json, .bytes json)]⟩ = .panic := by
        run_go [Src.Scheme.MutateJsonAbs.body1, c1, h1, oneVal]
      rw [List.mapIdx_cons, rangeN]
      run_go [mutateAbsLoop, h1, Env.new, hb]
    | err x =>
      obtain ⟨N, hc⟩ := mutateAbs_calls (fl := fl) json acc k []
      refine ⟨N, fun fuel d hf hd => ?_⟩
      obtain ⟨c1, -⟩ := hc fuel d hf hd
      have hb : exec (ctx fl fuel (d + 5)) fuel Src.Scheme.MutateJsonAbs.body1 ⟨(), [(go% k, .bytes k), (0, .nil), (go% val, .bytes v), (go% err, .nil), (go% newJson, .bytes acc), (0, .nil), (go% s.originalKeys, o), (go% s.keys, k0), (go% json, .bytes json)]⟩ = .ret () [o, k0, .nil, .err x] := by
        run_go [Src.Scheme.MutateJsonAbs.body1, c1, h1, oneVal]
      rw [List.mapIdx_cons, rangeN]
      run_go [mutateAbsLoop, h1, Env.new, hb]
    | ok x =>
      obtain ⟨N, hc⟩ := mutateAbs_calls (fl := fl) json acc k (formatType (fun s => (fl.parse s).isSome) x)
      cases hk : k.length == 0 with
      | true =>
        have h2 : AddKeyValueString (fun s => (fl.parse s).isSome) acc k (formatType (fun s => (fl.parse s).isSome) x) [] = .done [] (some .nullKey) := by rw [AddKeyValueString, if_pos hk]
        refine ⟨N, fun fuel d hf hd => ?_⟩
        obtain ⟨c1, c2⟩ := hc fuel d hf hd
        rw [hk] at c2
        have hb : exec (ctx fl fuel (d + 5)) fuel Src.Scheme.MutateJsonAbs.body1 ⟨(), [(go% k, .bytes k), (0, .nil), (go% val, .bytes v), (go% err, .nil), (go% newJson, .bytes acc), (0, .nil), (go% s.originalKeys, o), (go% s.keys, k0), (go% json, .bytes json)]⟩ = .ret () [o, k0, .nil, .err .nullKey] := by
          run_go [Src.Scheme.MutateJsonAbs.body1, c1, h1, oneVal, c2]
        rw [List.mapIdx_cons, rangeN]
        run_go [mutateAbsLoop, h1, h2, Env.new, hb]
      | false =>
        cases h2 : AddKeyValueString (fun s => (fl.parse s).isSome) acc k (formatType (fun s => (fl.parse s).isSome) x) [] with
        | panic =>
          refine ⟨N, fun fuel d hf hd => ?_⟩
          obtain ⟨c1, c2⟩ := hc fuel d hf hd
          rw [hk] at c2
          have hb : exec (ctx fl fuel (d + 5)) fuel Src.Scheme.MutateJsonAbs.body1 ⟨(), [(go% k, .bytes k), (0, .nil), (go% val, .bytes v), (go% err, .nil), (go% newJson, .bytes acc), (0, .nil), (go% s.originalKeys, o), (go% s.keys, k0), (go% json, .bytes json)]⟩ = .panic := by
            run_go [Src.Scheme.MutateJsonAbs.body1, c1, h1, oneVal, c2, h2, mutVals]
          rw [List.mapIdx_cons, rangeN]
          run_go [mutateAbsLoop, h1, h2, Env.new, hb]
        | done acc' o2 =>
          cases o2 with
          | some e3 =>
            refine ⟨N, fun fuel d hf hd => ?_⟩
            obtain ⟨c1, c2⟩ := hc fuel d hf hd
            rw [hk] at c2
            have hb : exec (ctx fl fuel (d + 5)) fuel Src.Scheme.MutateJsonAbs.body1 ⟨(), [(go% k, .bytes k), (0, .nil), (go% val, .bytes v), (go% err, .nil), (go% newJson, .bytes acc), (0, .nil), (go% s.originalKeys, o), (go% s.keys, k0), (go% json, .bytes json)]⟩ = .ret () [o, k0, .nil, .err e3] := by
              run_go [Src.Scheme.MutateJsonAbs.body1, c1, h1, oneVal, c2, h2, mutVals]
            rw [List.mapIdx_cons, rangeN]
            run_go [mutateAbsLoop, h1, h2, Env.new, hb]
          | none =>
            obtain ⟨M, ih⟩ := ih acc' (formatType (fun s => (fl.parse s).isSome) x) fun i => f (i + 1)
            refine ⟨N + M, fun fuel d hf hd => ?_⟩
            obtain ⟨c1, c2⟩ := hc fuel d (by omega) (by omega)
            rw [hk] at c2
            have ih := ih fuel d (by omega) (by omega)
            have hb : exec (ctx fl fuel (d + 5)) fuel Src.Scheme.MutateJsonAbs.body1 ⟨(), [(go% k, .bytes k), (0, .nil), (go% val, .bytes v), (go% err, .nil), (go% newJson, .bytes acc), (0, .nil), (go% s.originalKeys, o), (go% s.keys, k0), (go% json, .bytes json)]⟩ =
                .norm ⟨(), [(go% k, .bytes k), (0, .nil), (go% val, .bytes (formatType (fun s => (fl.parse s).isSome) x)), (go% err, .nil), (go% newJson, .bytes acc'), (0, .nil), (go% s.originalKeys, o), (go% s.keys, k0), (go% json, .bytes json)]⟩ := by
              run_go [Src.Scheme.MutateJsonAbs.body1, c1, h1, oneVal, c2, h2, mutVals]
            rw [List.mapIdx_cons, rangeN]
            run_go [mutateAbsLoop, h1, h2, Env.new, hb]
            exact ih

/-- What `MutateJsonAbs` returns. -/
def schemeOut (s : Scheme) : Out Bytes → R (List Val)
  | .ok r => .ok (schemeVals s ++ [.bytes r, .nil])
  | .err e => .ok (schemeVals s ++ [.nil, .err e])
  | .panic => .panic

/-- `Scheme.MutateJsonAbs`, make.go:55-71 -/
theorem text_Scheme_MutateJsonAbs (s : Scheme) (hs : SchemeOk s) :
    Call1 fl (go% Scheme.MutateJsonAbs) (schemeVals s ++ [.bytes json]) (schemeOut s (s.MutateJsonAbs (fun s => (fl.parse s).isSome) json)) := by
  obtain ⟨N, hN⟩ := schAbsMut_for1 (fl := fl) (json := json) (nilKeys s.originalNil s.originalKeys) (nilKeys s.keysNil s.keys) s.keys [123, 125] [] fun i => .int i
  refine ⟨N + 6, fun fuel depth hf hd => ?_⟩
  obtain ⟨d, rfl⟩ : ∃ d, depth = d + 5 + 1 := ⟨depth - 6, by omega⟩
  have e := hN fuel d (by omega) (by omega)
  rw [fn_run (g := Src.Scheme.MutateJsonAbs) rfl]
  obtain ⟨h1, -⟩ := hs.same
  have h2 : s.MutateJsonAbs (fun s => (fl.parse s).isSome) json = mutateAbsLoop (fun s => (fl.parse s).isSome) json s.keys [123, 125] := rfl
  rcases h : mutateAbsLoop (fun s => (fl.parse s).isSome) json s.keys [123, 125] with r | x | _ <;> rw [h] at e
  · obtain ⟨v', e⟩ := e
    run_go [Func.run, bindParams, Src.Scheme.MutateJsonAbs, Src.Scheme.MutateJsonAbs.for1, schemeVals, schemeOut, h, h1, h2, e, List.cons_append, List.nil_append]
  · simp only at e
    run_go [Func.run, bindParams, Src.Scheme.MutateJsonAbs, Src.Scheme.MutateJsonAbs.for1, schemeVals, schemeOut, h, h1, h2, e, List.cons_append, List.nil_append]
  · simp only at e
    run_go [Func.run, bindParams, Src.Scheme.MutateJsonAbs, Src.Scheme.MutateJsonAbs.for1, schemeVals, schemeOut, h, h1, h2, e, List.cons_append, List.nil_append]

/-! ### MakeScheme, and the methods called from outside -/

theorem optVal_keySlice (s : Scheme) : optVal .strs s.keySlice = nilKeys s.keysNil s.keys := by
  unfold Scheme.keySlice; cases s.keysNil <;> rfl

theorem SchemeOk.slice {s : Scheme} (h : SchemeOk s) : s.keySlice.getD [] = s.keys := by
  rcases h.keys with ⟨h1, h2⟩ | h1 <;> simp [Scheme.keySlice, h1]
  exact h2

/-- `MakeScheme()`: a call without keys is in Go a call with nil as the slice of keys. -/
theorem text_MakeScheme_none : ∃ N, ∀ fuel depth, N ≤ fuel → N ≤ depth →
    (jin fl).fn fuel depth (go% MakeScheme) true [.nil] = .ok (schemeVals (MakeScheme [])) := by
  refine ⟨1, fun fuel depth _ hd => ?_⟩
  obtain ⟨d, rfl⟩ : ∃ d, depth = d + 1 := ⟨depth - 1, by omega⟩
  rw [fn_run (g := Src.MakeScheme) rfl]
  run_go [Func.run, bindParams, Src.MakeScheme]
  rfl

/-- `MakeScheme(k1, …, kn)` with at least one key, make.go:20-22. -/
theorem text_MakeScheme (keys : List Bytes) (h : keys ≠ []) :
    Call fl (go% MakeScheme) [] keys (.ok (schemeVals (MakeScheme keys))) := by
  refine Call.of (g := Src.MakeScheme) (ps := []) rfl rfl rfl rfl 0 0 fun fuel d _ => ?_
  have hk : keys.isEmpty = false := by cases keys with | nil => exact absurd rfl h | cons => rfl
  rw [fn_run (g := Src.MakeScheme) rfl]
  run_go [Func.run, bindParams, Src.MakeScheme, schemeVals, MakeScheme, hk, nilKeys, List.nil_append]

/-- `Scheme.MakeJson`, make.go:26-28 -/
theorem text_Scheme_MakeJson (s : Scheme) (hs : SchemeOk s) (values : List GoVal) :
    Call fl (go% Scheme.MakeJson) (schemeVals s) (values.map sprintV)
      (.ok (schemeVals s ++ [if s.keys.length = values.length then .bytes (s.MakeJson (fun s => (fl.parse s).isSome) values) else .nil])) := by
  refine Call.of (g := Src.Scheme.MakeJson) (ps := [_, _]) rfl rfl rfl rfl 0 4 fun fuel d _ => ?_
  have e := run_MakeJson (fl := fl) (fuel := fuel) (d := d) (sp := false) s.keySlice values
  rw [optVal_keySlice, hs.slice] at e
  have hm : s.MakeJson (fun s => (fl.parse s).isSome) values = MakeJson (fun s => (fl.parse s).isSome) s.keySlice values := rfl
  rw [fn_run (g := Src.Scheme.MakeJson) rfl]
  by_cases hl : s.keys.length = values.length
  · rw [if_pos hl] at e; run_go [Func.run, bindParams, Src.Scheme.MakeJson, schemeVals, e, hl, hm, List.nil_append, List.cons_append]
  · rw [if_neg hl] at e; run_go [Func.run, bindParams, Src.Scheme.MakeJson, schemeVals, e, hl, List.nil_append, List.cons_append]

/-- `Scheme.MakeJsonString`, make.go:32-34 -/
theorem text_Scheme_MakeJsonString (s : Scheme) (hs : SchemeOk s) (values : List Bytes) :
    Call fl (go% Scheme.MakeJsonString) (schemeVals s) values
      (.ok (schemeVals s ++ [if s.keys.length = values.length then .bytes (s.MakeJsonString (fun s => (fl.parse s).isSome) values) else .nil])) := by
  refine Call.of (g := Src.Scheme.MakeJsonString) (ps := [_, _]) rfl rfl rfl rfl 0 4 fun fuel d _ => ?_
  have e := run_MakeJsonString (fl := fl) (fuel := fuel) (d := d) (sp := false) s.keySlice values
  rw [optVal_keySlice, hs.slice] at e
  have hm : s.MakeJsonString (fun s => (fl.parse s).isSome) values = MakeJsonString (fun s => (fl.parse s).isSome) s.keySlice values := rfl
  rw [fn_run (g := Src.Scheme.MakeJsonString) rfl]
  by_cases hl : s.keys.length = values.length
  · rw [if_pos hl] at e; run_go [Func.run, bindParams, Src.Scheme.MakeJsonString, schemeVals, e, hl, hm, List.nil_append, List.cons_append]
  · rw [if_neg hl] at e; run_go [Func.run, bindParams, Src.Scheme.MakeJsonString, schemeVals, e, hl, List.nil_append, List.cons_append]

theorem text_Scheme_Add (s : Scheme) (hs : SchemeOk s) (key : Bytes) :
    Call1 fl (go% Scheme.Add) (schemeVals s ++ [.bytes key]) (.ok (schemeVals (s.Add key).1 ++ [.bool (s.Add key).2])) :=
  Call1.of (0) 1 fun _ _ _ => run_Scheme_Add s hs key

theorem text_Scheme_Remove (s : Scheme) (hs : SchemeOk s) (key : Bytes) :
    Call1 fl (go% Scheme.Remove) (schemeVals s ++ [.bytes key]) (.ok (schemeVals (s.Remove key).1 ++ [.bool (s.Remove key).2])) :=
  Call1.of (0) 1 fun _ _ _ => run_Scheme_Remove s hs key

theorem text_Scheme_Save (s : Scheme) :
    Call1 fl (go% Scheme.Save) (schemeVals s) (.ok (schemeVals s.Save)) :=
  Call1.of (0) 1 fun _ _ _ => run_Scheme_Save s

theorem text_Scheme_Restore (s : Scheme) :
    Call1 fl (go% Scheme.Restore) (schemeVals s) (.ok (schemeVals s.Restore)) :=
  Call1.of (0) 1 fun _ _ _ => run_Scheme_Restore s

theorem text_Scheme_GetOriginalKeys (s : Scheme) :
    Call1 fl (go% Scheme.GetOriginalKeys) (schemeVals s) (.ok (schemeVals s ++ [nilKeys s.originalNil s.originalKeys])) :=
  Call1.of (0) 1 fun _ _ _ => run_Scheme_GetOriginalKeys s

theorem text_Scheme_GetCurrentKeys (s : Scheme) :
    Call1 fl (go% Scheme.GetCurrentKeys) (schemeVals s) (.ok (schemeVals s ++ [nilKeys s.keysNil s.keys])) :=
  Call1.of (0) 1 fun _ _ _ => run_Scheme_GetCurrentKeys s

theorem text_Scheme_Check (s : Scheme) (hs : SchemeOk s) :
    Call1 fl (go% Scheme.Check) (schemeVals s ++ [.bytes json]) (schemeBool s (s.Check json)) :=
  Call1.of ((s.keys.map fun k => need json [k]).sum) 4 fun _ _ h => run_Scheme_Check s hs fun _ hk =>
    Nat.lt_of_le_of_lt (le_sum_mem (List.mem_map_of_mem (f := fun k => need json [k]) hk)) h

theorem text_Scheme_CheckAbs (s : Scheme) (hs : SchemeOk s) :
    Call1 fl (go% Scheme.CheckAbs) (schemeVals s ++ [.bytes json]) (schemeBool s (s.CheckAbs json)) :=
  Call1.of (need json [] + s.keys.length) 5 fun _ _ h => run_Scheme_CheckAbs s hs h

/-! ### Maps, called from outside -/

theorem text_GetMap (json : Bytes) (path : List Bytes) :
    Call fl (go% GetMap) [.bytes json] path (oneVal (optVal .map) .nil (GetMap json path)) :=
  Call.of (g := Src.GetMap) (ps := [_]) rfl rfl rfl rfl (need json path) 4 fun _ _ h => run_GetMap (by omega)

theorem text_GetAllMap (json : Bytes) (path keys : List Bytes) :
    Call fl (go% GetAllMap) [.bytes json, .strs keys] path (oneVal .map .nil (GetAllMap json keys path)) :=
  Call.of (g := Src.GetAllMap) (ps := [_, _]) rfl rfl rfl rfl ((keys.map fun k => need json (path ++ [k])).sum) 4 fun _ _ h =>
    run_GetAllMap fun _ hk => Nat.lt_of_le_of_lt (le_sum_mem (List.mem_map_of_mem (f := fun k => need json (path ++ [k])) hk)) h

theorem text_JO_GetMap (j : JO) (p : _) :
    Call fl (go% JO.GetMap) [.bytes j.body] p (addBody j.body (oneVal (optVal .map) .nil (GetMap j.body p))) := by
  jo_read Src.JO.GetMap, (oneVal (optVal .map) .nil (GetMap j.body p)), text_GetMap (fl := fl) j.body p

theorem text_JO_GetAllMap (j : JO) (keys p : _) :
    Call fl (go% JO.GetAllMap) [.bytes j.body, .strs keys] p (addBody j.body (oneVal .map .nil (GetAllMap j.body keys p))) := by
  jo_read Src.JO.GetAllMap, (oneVal .map .nil (GetAllMap j.body keys p)), text_GetAllMap (fl := fl) j.body p keys

/-- `MakeArray(e1, …, en)` with at least one element, or with a slice -/
theorem text_MakeArray (values : List GoVal) :
    Call fl (go% MakeArray) [] (values.map sprintV) (.ok [.bytes (MakeArray (fun s => (fl.parse s).isSome) (some values))]) :=
  Call.of (g := Src.MakeArray) (ps := []) rfl rfl rfl rfl 0 3 fun _ _ _ => run_MakeArray (some values)

theorem text_MakeJson (keys : Option (List Bytes)) (values : List GoVal) :
    Call1 fl (go% MakeJson) [optVal .strs keys, .strs (values.map sprintV)]
      (if (keys.getD []).length = values.length then .ok [.bytes (MakeJson (fun s => (fl.parse s).isSome) keys values)] else .ok [.nil]) :=
  Call1.of 0 4 fun _ _ _ => run_MakeJson keys values

theorem text_MakeJsonWithMap (entries : Option (List (Bytes × Bytes))) :
    Call1 fl (go% MakeJsonWithMap) [optVal .map entries] (.ok [.bytes (MakeJsonWithMap (fun s => (fl.parse s).isSome) entries)]) :=
  Call1.of 0 4 fun _ _ _ => run_MakeJsonWithMap entries

/-! ### Iterators, called from outside -/

theorem fnIn_each {σ : Type} {f : Id} {g : Func} {ps : List Id} {x : Id} {C : σ → List Val → R (σ × List Val)} (args : List Val) (path : List Bytes) (u : σ)
    (hg : (jin fl).funcs.find? (fun g => g.name == f) = some g) (hv : g.variadic = true) (hp : g.params = ps ++ [x]) (hl : ps.length = args.length) :
    (jin fl).fnIn fuel (d + 1) C f false (args ++ path.map .bytes) u = (jin fl).fnIn fuel (d + 1) C f true (args ++ [.strs path]) u := by
  rw [fnIn_run hg, fnIn_run hg, Func.run, Func.run, hv, hp, bindParams_path ps x args path hl]

variable {σ : Type}

theorem text_IterateArray (json : Bytes) (path : List Bytes) (cb : σ → Bytes → Cb σ) (u : σ) :
    CallCb fl (cb1 cb) (go% IterateArray) ([.bytes json, .nil] ++ path.map .bytes) u (iterVal (IterateArray json cb path u)) := by
  refine ⟨need json path + 5, fun fuel depth hf hd => ?_⟩
  obtain ⟨d, rfl⟩ : ∃ d, depth = d + 3 + 1 := ⟨depth - 4, by omega⟩
  rw [fnIn_each (g := Src.IterateArray) (ps := [_, _]) [.bytes json, .nil] path u rfl rfl rfl rfl, fnIn_run (g := Src.IterateArray) rfl]
  exact run_IterateArray (by omega) cb u

theorem text_IterateKeyValue (json : Bytes) (path : List Bytes) (cb : σ → Bytes → Bytes → Cb σ) (u : σ) :
    CallCb fl (cb2 cb) (go% IterateKeyValue) ([.bytes json, .nil] ++ path.map .bytes) u (iterVal (IterateKeyValue json cb path u)) := by
  refine ⟨need json path + 5, fun fuel depth hf hd => ?_⟩
  obtain ⟨d, rfl⟩ : ∃ d, depth = d + 3 + 1 := ⟨depth - 4, by omega⟩
  rw [fnIn_each (g := Src.IterateKeyValue) (ps := [_, _]) [.bytes json, .nil] path u rfl rfl rfl rfl, fnIn_run (g := Src.IterateKeyValue) rfl]
  exact run_IterateKeyValue (by omega) cb u

theorem text_JO_IterateArray (j : JO) (path : List Bytes) (cb : σ → Bytes → Cb σ) (u : σ) :
    CallCb fl (cb1 cb) (go% JO.IterateArray) ([.bytes j.body, .nil] ++ path.map .bytes) u
      ((iterVal (IterateArray j.body cb path u)).bind fun r => .ok (r.1, .bytes j.body :: r.2)) := by
  refine ⟨need j.body path + 6, fun fuel depth hf hd => ?_⟩
  obtain ⟨d, rfl⟩ : ∃ d, depth = d + 3 + 1 + 1 := ⟨depth - 5, by omega⟩
  have h := run_IterateArray (fl := fl) (d := d) (json := j.body) (path := path) (fuel := fuel) (by omega) cb u
  rw [← fnIn_run (g := Src.IterateArray) (f := go% IterateArray) rfl] at h
  rw [fnIn_each (g := Src.JO.IterateArray) (ps := [_, _]) [.bytes j.body, .nil] path u rfl rfl rfl rfl, fnIn_run (g := Src.JO.IterateArray) rfl]
  rcases hr : IterateArray j.body cb path u with ⟨u', _ | e⟩ | _ <;> rw [hr] at h <;> simp only [iterVal] at h <;>
    run_go [Func.run, bindParams, Src.JO.IterateArray, h, iterVal, List.cons_append, List.nil_append]

theorem text_JO_IterateKeyValue (j : JO) (path : List Bytes) (cb : σ → Bytes → Bytes → Cb σ) (u : σ) :
    CallCb fl (cb2 cb) (go% JO.IterateKeyValue) ([.bytes j.body, .nil] ++ path.map .bytes) u
      ((iterVal (IterateKeyValue j.body cb path u)).bind fun r => .ok (r.1, .bytes j.body :: r.2)) := by
  refine ⟨need j.body path + 6, fun fuel depth hf hd => ?_⟩
  obtain ⟨d, rfl⟩ : ∃ d, depth = d + 3 + 1 + 1 := ⟨depth - 5, by omega⟩
  have h := run_IterateKeyValue (fl := fl) (d := d) (json := j.body) (path := path) (fuel := fuel) (by omega) cb u
  rw [← fnIn_run (g := Src.IterateKeyValue) (f := go% IterateKeyValue) rfl] at h
  rw [fnIn_each (g := Src.JO.IterateKeyValue) (ps := [_, _]) [.bytes j.body, .nil] path u rfl rfl rfl rfl, fnIn_run (g := Src.JO.IterateKeyValue) rfl]
  rcases hr : IterateKeyValue j.body cb path u with ⟨u', _ | e⟩ | _ <;> rw [hr] at h <;> simp only [iterVal] at h <;>
    run_go [Func.run, bindParams, Src.JO.IterateKeyValue, h, iterVal, List.cons_append, List.nil_append]


end
end Jin.Go
