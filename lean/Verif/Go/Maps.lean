import Verif.Go.Walk
/-!
# Go.Maps — functions of the text that make or read maps, and those that take values of any type

A value of type `interface{}` is given as the text `fmt.Sprintf("%v", …)` prints for it (`sprintV`).
-/

namespace Jin.Go

@[go_run] theorem store_map (m : GoMap) (k b : Bytes) : Val.store (.map m) (.bytes k) (.bytes b) = .ok (.map (GoMap.set m k b)) := rfl
@[go_run] theorem items_map (m : GoMap) : Val.items (.map m) = .ok (m.map fun e => (.bytes e.1, .bytes e.2)) := rfl
@[go_run] theorem eq_map_nil (m : GoMap) : Val.eq (.map m) .nil = .ok false := rfl

section
variable {fl : FloatLib UInt64} {fuel d : Nat} {sp : Bool} {json : Bytes} {path : List Bytes}

/-- `fmt.Sprintf("%v", x)` -/
@[go_run] theorem run_Sprintf (s : Bytes) : (jin fl).fn fuel (d + 1) (go% fmt.Sprintf) sp [.bytes [37, 118], .bytes s] = .ok [.bytes s] := by
  rw [fn_lib rfl]
  show (match sprintf [37, 118] [.text s] with | some b => R.ok [Val.bytes b] | none => R.stuck) = _
  simp [sprintf, FmtArg.plain]

theorem run_MakeArray (values : Option (List GoVal)) :
    (jin fl).fn fuel (d + 4) (go% MakeArray) true [optVal (fun l => .strs (l.map sprintV)) values] = .ok [.bytes (MakeArray (fun s => (fl.parse s).isSome) values)] := by
  rw [fn_run (g := Src.MakeArray) rfl]
  have ha : bArr = [91, 93] := rfl
  cases values with
  | none => run_go [Func.run, Src.MakeArray, bindParams, MakeArray, optVal, Option.map_none, makeArr, ha]
  | some l =>
    have hm : (l.map fun e => formatType (fun s => (fl.parse s).isSome) (sprintV e)) = (l.map sprintV).map (formatType fun s => (fl.parse s).isSome) := by rw [List.map_map]; rfl
    have e := range_comma (k := 0) (v := go% e) (ρ := [(0, .nil), (go% elements, .strs (l.map sprintV))])
      (body := fun s => exec (ctx fl fuel (d + 3)) fuel Src.MakeArray.body1 s) .bytes (formatType fun s => (fl.parse s).isSome) ?_ (l.map sprintV) [91] fun i => .int i
    · generalize hj : [91] ++ eachComma ((l.map sprintV).map (formatType fun s => (fl.parse s).isSome)) = J at e
      have hj' : 91 :: eachComma ((l.map sprintV).map (formatType fun s => (fl.parse s).isSome)) = J := hj
      have hJ : J ≠ [] := by rw [← hj]; simp
      run_go [Func.run, Src.MakeArray, bindParams, MakeArray, optVal, Option.map_some, hm, makeArr, Src.MakeArray.for1, e, hj', closeWith, slice_dropLast J hJ]
    · intro i js a
      run_go [Src.MakeArray.body1, Env.new, List.append_assoc]

theorem mj_for1 (keys vs : List Bytes) (ks : List Bytes) :
    ∀ (js : Bytes) (m : Nat), ks.length + m = vs.length →
    rangeN (go% i) (go% k) (fun s => exec (ctx fl fuel (d + 3)) fuel Src.MakeJson.body1 s) (ks.mapIdx fun i c => (.int ((m + i : Nat) : Int), .bytes c))
        ⟨(), [(go% js, .bytes js), (0, .nil), (go% keys, .strs keys), (go% values, .strs vs)]⟩ =
      .norm ⟨(), [(go% js, .bytes (js ++ eachComma ((ks.zip ((vs.drop m).map (formatType fun s => (fl.parse s).isSome))).map fun x => memberText x.1 x.2))),
        (0, .nil), (go% keys, .strs keys), (go% values, .strs vs)]⟩ := by
  induction ks with
  | nil => intro js m _; simp [rangeN, eachComma]
  | cons k ks ih =>
    intro js m hm
    have hlt : m < vs.length := by simp at hm; omega
    have hv := List.getElem?_eq_getElem hlt
    have ih := ih (js ++ memberText k (formatType (fun s => (fl.parse s).isSome) vs[m]) ++ [44]) (m + 1) (by simp at hm; omega)
    have e : (fun (i : Nat) (c : Bytes) => (Val.int ((m + 1 + i : Nat) : Int), Val.bytes c)) = 
      fun i c => (Val.int ((m + (i + 1) : Nat) : Int), Val.bytes c) := by
      funext i c; rw [show m + 1 + i = m + (i + 1) by omega]
    rw [e] at ih
    rw [List.mapIdx_cons, rangeN, List.drop_eq_getElem_cons hlt]
    simp only [List.map_cons, List.zip_cons_cons, Nat.add_zero]
    generalize vs[m] = w at *
    have hb : (exec (ctx fl fuel (d + 3)) fuel Src.MakeJson.body1 ⟨(), Env.new (go% k) (.bytes k) (Env.new (go% i) (.int (m : Int))
        ((0, .nil) :: [(go% js, .bytes js), (0, .nil), (go% keys, .strs keys), (go% values, .strs vs)]))⟩).leave = 
        .norm ⟨(), [(go% js, .bytes (js ++ memberText k (formatType (fun s => (fl.parse s).isSome) w) ++ [44])),
        (0, .nil), (go% keys, .strs keys), (go% values, .strs vs)]⟩ := by
      run_go [Src.MakeJson.body1, Env.new, hv, memberText, List.append_assoc, List.cons_append, List.nil_append]
    simp only [hb]
    refine ih.trans ?_
    simp [eachComma]

theorem run_MakeJson (keys : Option (List Bytes)) (values : List GoVal) :
    (jin fl).fn fuel (d + 4) (go% MakeJson) sp [optVal .strs keys, .strs (values.map sprintV)] =
      if (keys.getD []).length = values.length then .ok [.bytes (MakeJson (fun s => (fl.parse s).isSome) keys values)] else .ok [.nil] := by
  rw [fn_run (g := Src.MakeJson) rfl]
  cases keys with
  | none =>
    cases values with
    | nil => run_go [Func.run, Src.MakeJson, bindParams, MakeJson, optVal, Option.getD_none, List.map_nil, List.map_cons, List.length_cons, List.length_nil]; rfl
    | cons v vs => 
      have h : ((0 : Int) == (((vs.map sprintV).length + 1 : Nat) : Int)) = false := beq_eq_false_iff_ne.2 (by omega)
      have h' : ¬ 0 = vs.length + 1 := by simp
      run_go [Func.run, Src.MakeJson, bindParams, MakeJson, optVal, Option.getD_none, List.map_nil, List.map_cons, List.length_cons, List.length_nil, h, h']
  | some ks =>
    by_cases h : ks.length = values.length
    · have e := mj_for1 (fl := fl) (fuel := fuel) (d := d) ks (values.map sprintV) ks [123] 0 (by simpa using h)
      simp only [Nat.zero_add, List.drop_zero] at e
      generalize hj : [123] ++ eachComma ((ks.zip ((values.map sprintV).map (formatType fun s => (fl.parse s).isSome))).map fun x => memberText x.1 x.2) = J at e
      have hj' : 123 :: eachComma ((ks.zip ((values.map sprintV).map (formatType fun s => (fl.parse s).isSome))).map fun x => memberText x.1 x.2) = J := hj
      have hJ : J ≠ [] := by rw [← hj]; simp
      have hm : (values.map fun e => formatType (fun s => (fl.parse s).isSome) (sprintV e)) = (values.map sprintV).map (formatType fun s => (fl.parse s).isSome) := by rw [List.map_map]; rfl
      have h1 : ((ks.length : Int) == (values.length : Int)) = true := by simp [h]
      have h2 : (ks.length != values.length) = false := by simp [h]
      run_go [Func.run, Src.MakeJson, bindParams, MakeJson, optVal, Option.getD_some, List.length_map, h1, h2, h, hm, Src.MakeJson.for1, e, makeObj, hj', closeWith, slice_dropLast J hJ]
    · have h1 : ((ks.length : Int) == (values.length : Int)) = false := beq_eq_false_iff_ne.2 (by omega)
      run_go [Func.run, Src.MakeJson, bindParams, optVal, Option.getD_some, List.length_map, h1, h]

theorem range_members {body : St Unit → Res Unit} {ρ : Env} (txt : Bytes → Bytes)
    (hb : ∀ (js k v : Bytes), (body ⟨(), Env.new (go% v) (.bytes v) (Env.new (go% k) (.bytes k) ((0, .nil) :: (go% js, .bytes js) :: ρ))⟩).leave =
        .norm ⟨(), (go% js, .bytes (js ++ (memberText k (txt v) ++ [44]))) :: ρ⟩) (l : List (Bytes × Bytes)) :
    ∀ (js : Bytes), rangeN (go% k) (go% v) body (l.map fun e => (.bytes e.1, .bytes e.2)) ⟨(), (go% js, .bytes js) :: ρ⟩ =
      .norm ⟨(), (go% js, .bytes (js ++ eachComma ((l.map fun e => (e.1, txt e.2)).map fun x => memberText x.1 x.2))) :: ρ⟩ := by
  induction l with
  | nil => intro js; simp [rangeN, eachComma]
  | cons a l ih =>
    intro js
    rw [List.map_cons, rangeN]
    simp only [hb]
    refine (ih _).trans ?_
    simp [eachComma]

theorem run_MakeJsonWithMap (entries : Option (List (Bytes × Bytes))) :
    (jin fl).fn fuel (d + 4) (go% MakeJsonWithMap) sp [optVal .map entries] = .ok [.bytes (MakeJsonWithMap (fun s => (fl.parse s).isSome) entries)] := by
  rw [fn_run (g := Src.MakeJsonWithMap) rfl]
  cases entries with
  | none => run_go [Func.run, Src.MakeJsonWithMap, bindParams, MakeJsonWithMap, optVal]
  | some l =>
    have e := range_members (ρ := [(0, .nil), (go% json, .map l)])
      (body := fun s => exec (ctx fl fuel (d + 3)) fuel Src.MakeJsonWithMap.body1 s) (formatType fun s => (fl.parse s).isSome) ?_ l [123]
    · generalize hj : [123] ++ eachComma ((l.map fun e => (e.1, formatType (fun s => (fl.parse s).isSome) e.2)).map fun x => memberText x.1 x.2) = J at e
      have hj' : 123 :: eachComma ((l.map fun e => (e.1, formatType (fun s => (fl.parse s).isSome) e.2)).map fun x => memberText x.1 x.2) = J := hj
      have hJ : J ≠ [] := by rw [← hj]; simp
      run_go [Func.run, Src.MakeJsonWithMap, bindParams, MakeJsonWithMap, makeObj, optVal, Src.MakeJsonWithMap.for1, e, hj', closeWith, slice_dropLast J hJ]
    · intro js k v
      run_go [Src.MakeJsonWithMap.body1, Env.new, memberText, List.append_assoc, List.cons_append, List.nil_append]

@[go_run] theorem ctx_fnIn {V : Type} (cb : V → List Val → R (V × List Val)) (f : Id) (vs : List Val) (v : V) :
    (ctx fl fuel d).fnIn cb f sp vs v = (jin fl).fnIn fuel d cb f sp vs v := rfl

/-- The variables of `GetMap`. -/
def mapEnv (json : Bytes) (path : List Bytes) (start stop : Nat) (m : GoMap) : Env :=
  [(go% mainMap, .map m), (go% err, .nil), (go% «end», .int stop), (go% start, .int start), (0, .nil), (go% json, .bytes json), (go% path, .strs path)]

/-- The error of an iteration. -/
def errVal : Option Err → Val
  | some e => .err e
  | none => .nil

theorem map_obj (hf : need json path < fuel) (start stop : Nat) :
    (jin fl).fnIn fuel (d + 4) (litCb (ctx fl fuel (d + 4)) fuel [go% key, go% val] [go% mainMap] Src.GetMap.lit1) (go% IterateKeyValue) true
        [.bytes json, .nil, .strs path] ⟨(), mapEnv json path start stop []⟩ =
      match IterateKeyValue json (fun (m : GoMap) k v => .ret (m.set k v) true none) path [] with
      | .done m e => .ok (⟨(), mapEnv json path start stop m⟩, [errVal e])
      | .panic => .panic := by
  have hl := run_IterateKeyValue (fl := fl) (d := d) hf (fun (m : GoMap) k v => .ret (m.set k v) true none) []
  let S : GoMap → St Unit → Prop := fun m s => s = ⟨(), mapEnv json path start stop m⟩
  have hS : CbRel S (cb2 fun (m : GoMap) k v => .ret (m.set k v) true none) (litCb (ctx fl fuel (d + 4)) fuel [go% key, go% val] [go% mainMap] Src.GetMap.lit1) := by
    rintro m s vs hs
    obtain rfl : s = _ := hs
    unfold cb2
    split
    · run_go [litCb, Src.GetMap.lit1, mapEnv, closing]
      exact ⟨_, rfl, rfl⟩
    · run_go [litCb, Src.GetMap.lit1, mapEnv, closing]
      exact ⟨_, rfl, rfl⟩
    · trivial
  have hr := fnIn_rel (jin fl) fuel (d + 4) S _ _ (go% IterateKeyValue) true [.bytes json, .nil, .strs path] [] ⟨(), mapEnv json path start stop []⟩ hS rfl
  rw [fnIn_run (g := Src.IterateKeyValue) rfl, hl] at hr
  rcases h : IterateKeyValue json (fun (m : GoMap) k v => .ret (m.set k v) true none) path [] with ⟨u', _ | e⟩ | _ <;> rw [h] at hr
  · obtain ⟨s, h1, h2⟩ := hr; rw [h1, show s = _ from h2]; rfl
  · obtain ⟨s, h1, h2⟩ := hr; rw [h1, show s = _ from h2]; rfl
  · exact hr

theorem map_arr (hf : need json path < fuel) (start stop : Nat) :
    (jin fl).fnIn fuel (d + 4) (litCb (ctx fl fuel (d + 4)) fuel [go% val] [go% mainMap, go% count] Src.GetMap.lit2) (go% IterateArray) true
        [.bytes json, .nil, .strs path] ⟨(), (go% count, .int 0) :: (0, .nil) :: mapEnv json path start stop []⟩ =
      match IterateArray json (fun (m : GoMap × Nat) v => .ret (m.1.set (itoa m.2) v, m.2 + 1) true none) path ([], 0) with
      | .done m e => .ok (⟨(), (go% count, .int m.2) :: (0, .nil) :: mapEnv json path start stop m.1⟩, [errVal e])
      | .panic => .panic := by
  have hl := run_IterateArray (fl := fl) (d := d) hf (fun (m : GoMap × Nat) v => .ret (m.1.set (itoa m.2) v, m.2 + 1) true none) ([], 0)
  let S : GoMap × Nat → St Unit → Prop := fun m s => s = ⟨(), (go% count, .int m.2) :: (0, .nil) :: mapEnv json path start stop m.1⟩
  have hS : CbRel S (cb1 fun (m : GoMap × Nat) v => .ret (m.1.set (itoa m.2) v, m.2 + 1) true none)
      (litCb (ctx fl fuel (d + 4)) fuel [go% val] [go% mainMap, go% count] Src.GetMap.lit2) := by
    rintro ⟨m, n⟩ s vs hs
    obtain rfl : s = _ := hs
    unfold cb1
    split
    · run_go [litCb, Src.GetMap.lit2, mapEnv, closing]
      exact ⟨_, rfl, rfl⟩
    · trivial
  have hr := fnIn_rel (jin fl) fuel (d + 4) S _ _ (go% IterateArray) true [.bytes json, .nil, .strs path] ([], 0) ⟨(), (go% count, .int 0) :: (0, .nil) :: mapEnv json path start stop []⟩ hS rfl
  rw [fnIn_run (g := Src.IterateArray) rfl, hl] at hr
  rcases h : IterateArray json (fun (m : GoMap × Nat) v => .ret (m.1.set (itoa m.2) v, m.2 + 1) true none) path ([], 0) with ⟨u', _ | e⟩ | _ <;> rw [h] at hr
  · obtain ⟨s, h1, h2⟩ := hr; rw [h1, show s = _ from h2]; rfl
  · obtain ⟨s, h1, h2⟩ := hr; rw [h1, show s = _ from h2]; rfl
  · exact hr

set_option linter.unusedSimpArgs false in
theorem run_GetMap (hf : need json path < fuel) :
    (jin fl).fn fuel (d + 5) (go% GetMap) true [.bytes json, .strs path] = oneVal (optVal .map) .nil (GetMap json path) := by
  rw [fn_run (g := Src.GetMap) rfl]
  refine one_body rfl ?_
  have ha : bArr = [91, 93] := rfl
  have ho : bObj = [123, 125] := rfl
  cases h1 : json == [91, 93]
  rotate_left
  · run_go [Src.GetMap, GetMap, ha, ho, h1, oneRes, optVal]
  cases h2 : json == [123, 125]
  rotate_left
  · run_go [Src.GetMap, GetMap, ha, ho, h1, h2, oneRes, optVal]
  cases h : getStartEnd json path with
  | err e => run_go [Src.GetMap, GetMap, ha, ho, h1, h2, oneRes, run_getStartEnd hf, h, twoVals]
  | panic => run_go [Src.GetMap, GetMap, ha, ho, h1, h2, oneRes, run_getStartEnd hf, h, twoVals]
  | ok r =>
    obtain ⟨start, stop⟩ := r
    have e1 := map_obj (fl := fl) (d := d) hf start stop
    have e2 := map_arr (fl := fl) (d := d) hf start stop
    simp only [litCb_eq, mapEnv] at e1 e2
    cases h3 : json[start]? with
    | none => run_go [Src.GetMap, GetMap, ha, ho, h1, h2, oneRes, run_getStartEnd hf, h, twoVals, h3, idx_nat, outOpt]
    | some a =>
      cases h4 : a == 123
      · cases h5 : a == 91
        · run_go [Src.GetMap, GetMap, ha, ho, h1, h2, oneRes, run_getStartEnd hf, h, twoVals, h3, idx_nat, outOpt, h4, h5]
        · cases h6 : json[stop]? with
          | none => run_go [Src.GetMap, GetMap, ha, ho, h1, h2, oneRes, run_getStartEnd hf, h, twoVals, h3, idx_nat, outOpt, h4, h5, h6]
          | some z =>
            cases h7 : z == 93
            · run_go [Src.GetMap, GetMap, ha, ho, h1, h2, oneRes, run_getStartEnd hf, h, twoVals, h3, idx_nat, outOpt, h4, h5, h6, h7]
            · rcases h8 : IterateArray json (fun (m : GoMap × Nat) v => .ret (m.1.set (itoa m.2) v, m.2 + 1) true none) path ([], 0) with ⟨u', _ | e⟩ | _ <;>
                rw [h8] at e2 <;> simp only [errVal] at e2 <;>
                run_go [Src.GetMap, GetMap, ha, ho, h1, h2, oneRes, run_getStartEnd hf, h, twoVals, h3, idx_nat, outOpt, h4, h5, h6, h7, e2, h8, IterRes.toOut, optVal]
      · have h5 : (a == 91) = false := by rw [beq_iff_eq] at h4; subst h4; rfl
        cases h6 : json[stop]? with
          | none => run_go [Src.GetMap, GetMap, ha, ho, h1, h2, oneRes, run_getStartEnd hf, h, twoVals, h3, idx_nat, outOpt, h4, h5, h6]
          | some z =>
            cases h7 : z == 125
            · run_go [Src.GetMap, GetMap, ha, ho, h1, h2, oneRes, run_getStartEnd hf, h, twoVals, h3, idx_nat, outOpt, h4, h5, h6, h7]
            · rcases h8 : IterateKeyValue json (fun (m : GoMap) k v => .ret (m.set k v) true none) path [] with ⟨u', _ | e⟩ | _ <;>
                rw [h8] at e1 <;> simp only [errVal] at e1 <;>
                run_go [Src.GetMap, GetMap, ha, ho, h1, h2, oneRes, run_getStartEnd hf, h, twoVals, h3, idx_nat, outOpt, h4, h5, h6, h7, e1, h8, IterRes.toOut, optVal]

/-! ### GetAllMap -/

theorem allMap_for1 {k0 : Val} (hf : ∀ k ∈ keys, need json (path ++ [k]) < fuel) (f : Nat → Val) (m : GoMap) (v : Bytes) :
    (∀ m', getAllMapLoop json path keys m = .ok m' → ∃ v', rangeN 0 (go% k) (fun s => exec (ctx fl fuel (d + 4)) fuel Src.GetAllMap.body1 s)
      (keys.mapIdx fun i c => (f i, .bytes c)) ⟨(), [(go% results, .map m), (go% val, .bytes v), (go% err, .nil), (0, .nil), (go% json, .bytes json), (go% keys, k0), (go% path, .strs path)]⟩ = .norm ⟨(), [(go% results, .map m'), (go% val, .bytes v'), (go% err, .nil), (0, .nil), (go% json, .bytes json), (go% keys, k0), (go% path, .strs path)]⟩) ∧
    ((∀ m', getAllMapLoop json path keys m ≠ .ok m') → rangeN 0 (go% k) (fun s => exec (ctx fl fuel (d + 4)) fuel Src.GetAllMap.body1 s)
      (keys.mapIdx fun i c => (f i, .bytes c)) ⟨(), [(go% results, .map m), (go% val, .bytes v), (go% err, .nil), (0, .nil), (go% json, .bytes json), (go% keys, k0), (go% path, .strs path)]⟩ = oneRes .map .nil (getAllMapLoop json path keys m)) := by
  induction keys generalizing f m v with
  | nil =>
    refine ⟨fun vs h => ⟨v, ?_⟩, fun h => absurd rfl (h m)⟩
    cases h
    simp only [List.mapIdx_nil, rangeN]
  | cons k keys ih =>
    have hk := hf k List.mem_cons_self
    rw [List.mapIdx_cons, rangeN]
    cases h : GetString json (path ++ [k]) with
    | ok a =>
      have e : exec (ctx fl fuel (d + 4)) fuel Src.GetAllMap.body1 ⟨(), [(go% k, .bytes k), (0, .nil), (go% results, .map m), (go% val, .bytes v), (go% err, .nil), (0, .nil), (go% json, .bytes json), (go% keys, k0), (go% path, .strs path)]⟩ =
          .norm ⟨(), [(go% k, .bytes k), (0, .nil), (go% results, .map (m.set k a)), (go% val, .bytes a), (go% err, .nil), (0, .nil), (go% json, .bytes json), (go% keys, k0), (go% path, .strs path)]⟩ := by
        run_go [Src.GetAllMap.body1, run_GetString hk, h, oneVal]
      obtain ⟨h1, h2⟩ := ih (fun k' hm => hf k' (List.mem_cons_of_mem _ hm)) (fun i => f (i + 1)) (m.set k a) a
      run_go [Env.new, e, getAllMapLoop, h]
      exact ⟨h1, h2⟩
    | err e =>
      have e : exec (ctx fl fuel (d + 4)) fuel Src.GetAllMap.body1 ⟨(), [(go% k, .bytes k), (0, .nil), (go% results, .map m), (go% val, .bytes v), (go% err, .nil), (0, .nil), (go% json, .bytes json), (go% keys, k0), (go% path, .strs path)]⟩ = .ret () [.nil, .err e] := by
        run_go [Src.GetAllMap.body1, run_GetString hk, h, oneVal]
      run_go [Env.new, e, getAllMapLoop, h]
      exact ⟨fun vs h4 => (by cases h4), fun _ => rfl⟩
    | panic =>
      have e : exec (ctx fl fuel (d + 4)) fuel Src.GetAllMap.body1 ⟨(), [(go% k, .bytes k), (0, .nil), (go% results, .map m), (go% val, .bytes v), (go% err, .nil), (0, .nil), (go% json, .bytes json), (go% keys, k0), (go% path, .strs path)]⟩ = .panic := by
        run_go [Src.GetAllMap.body1, run_GetString hk, h, oneVal]
      run_go [Env.new, e, getAllMapLoop, h]
      exact ⟨fun vs h4 => (by cases h4), fun _ => rfl⟩

theorem run_GetAllMap (hf : ∀ k ∈ keys, need json (path ++ [k]) < fuel) :
    (jin fl).fn fuel (d + 5) (go% GetAllMap) true [.bytes json, .strs keys, .strs path] = oneVal .map .nil (GetAllMap json keys path) := by
  rw [fn_run (g := Src.GetAllMap) rfl]
  refine one_body rfl ?_
  obtain ⟨h1, h2⟩ := allMap_for1 (fl := fl) (d := d) (k0 := .strs keys) hf (fun i => .int i) [] []
  have hg : GetAllMap json keys path = getAllMapLoop json path keys [] := rfl
  cases h : getAllMapLoop json path keys [] with
  | ok m =>
    obtain ⟨v', e⟩ := h1 m h
    run_go [Src.GetAllMap, Src.GetAllMap.for1, e, oneRes, hg, h]
  | err e =>
    have e := h2 (by rw [h]; simp)
    run_go [Src.GetAllMap, Src.GetAllMap.for1, e, oneRes, hg, h]
  | panic =>
    have e := h2 (by rw [h]; simp)
    run_go [Src.GetAllMap, Src.GetAllMap.for1, e, oneRes, hg, h]

end
end Jin.Go
