import Verif.Go.Iter
import Verif.Model.Make
/-!
# Go.Make — the functions of make.go in the text

`none` is the nil slice.  `MakeArrayBytes` is run with its arguments as one slice (`MakeArrayBytes(values...)`).
-/

namespace Jin.Go

/-- A slice that may be nil. -/
def optVal {α : Type} (f : α → Val) : Option α → Val
  | some a => f a
  | none => .nil

@[go_run] theorem byteOf_101 : byteOf 101 = .ok 101 := rfl
@[go_run] theorem eq_ints_nil (b : List Int) : Val.eq (.ints b) .nil = .ok false := rfl
@[go_run] theorem eq_bools_nil (b : List Bool) : Val.eq (.bools b) .nil = .ok false := rfl
@[go_run] theorem eq_floats_nil (b : List UInt64) : Val.eq (.floats b) .nil = .ok false := rfl
@[go_run] theorem items_ints (l : List Int) : Val.items (.ints l) = .ok (l.mapIdx fun i c => (.int i, .int c)) := rfl
@[go_run] theorem items_bools (l : List Bool) : Val.items (.bools l) = .ok (l.mapIdx fun i c => (.int i, .bool c)) := rfl
@[go_run] theorem items_floats (l : List UInt64) : Val.items (.floats l) = .ok (l.mapIdx fun i c => (.int i, .float c)) := rfl

theorem range_comma {α : Type} {k v : Id} {body : St Unit → Res Unit} {ρ : Env} (inj : α → Val) (txt : α → Bytes)
    (hb : ∀ (i : Val) (js : Bytes) (a : α),
      (body ⟨(), Env.new v (inj a) (Env.new k i ((0, .nil) :: (go% js, .bytes js) :: ρ))⟩).leave.goes =
        some ⟨(), (go% js, .bytes (js ++ (txt a ++ [44]))) :: ρ⟩) (l : List α) :
    ∀ (js : Bytes) (f : Nat → Val), rangeN k v body (l.mapIdx fun i c => (f i, inj c)) ⟨(), (go% js, .bytes js) :: ρ⟩ =
      .norm ⟨(), (go% js, .bytes (js ++ eachComma (l.map txt))) :: ρ⟩ := by
  induction l with
  | nil => intro js f; simp [rangeN, eachComma]
  | cons a l ih =>
    intro js f
    rw [List.mapIdx_cons, rangeN]
    have h := hb (f 0) js a
    have e := ih (js ++ (txt a ++ [44])) fun i => f (i + 1)
    have e2 : js ++ eachComma ((a :: l).map txt) = js ++ (txt a ++ [44]) ++ eachComma (l.map txt) := by simp [eachComma]
    rw [e2]
    cases h3 : (body ⟨(), Env.new v (inj a) (Env.new k (f 0) ((0, .nil) :: (go% js, .bytes js) :: ρ))⟩).leave <;>
      simp only [h3, Res.goes, Option.some.injEq, reduceCtorEq] at h <;> subst h <;> exact e

theorem slice_dropLast (b : Bytes) (hb : b ≠ []) : slice b 0 ((b.length : Int) - 1) = .ok b.dropLast := by
  have h : 0 < b.length := List.length_pos_iff.2 hb
  rw [show (b.length : Int) - 1 = ((b.length - 1 : Nat) : Int) by omega, slice]
  rw [if_pos ⟨by omega, by omega, by omega⟩]
  simp [List.dropLast_eq_take]

section
variable {fl : FloatLib UInt64} {fuel d : Nat} {sp : Bool}

theorem run_MakeEmptyArray : (jin fl).fn fuel (d + 1) (go% MakeEmptyArray) sp [] = .ok [.bytes MakeEmptyArray] := by
  rw [fn_run (g := Src.MakeEmptyArray) rfl]
  run_go [Func.run, Src.MakeEmptyArray, bindParams, MakeEmptyArray]

theorem run_MakeEmptyJson : (jin fl).fn fuel (d + 1) (go% MakeEmptyJson) sp [] = .ok [.bytes MakeEmptyJson] := by
  rw [fn_run (g := Src.MakeEmptyJson) rfl]
  run_go [Func.run, Src.MakeEmptyJson, bindParams, MakeEmptyJson]

theorem run_MakeArrayString (values : Option (List Bytes)) :
    (jin fl).fn fuel (d + 4) (go% MakeArrayString) sp [optVal .strs values] = .ok [.bytes (MakeArrayString (fun s => (fl.parse s).isSome) values)] := by
  rw [fn_run (g := Src.MakeArrayString) rfl]
  have ha : bArr = [91, 93] := rfl
  cases values with
  | none => run_go [Func.run, Src.MakeArrayString, bindParams, MakeArrayString, optVal, Option.map_none, makeArr, ha]
  | some l =>
    have e := range_comma (k := 0) (v := go% v) (ρ := [(0, .nil), (go% values, .strs l)])
      (body := fun s => exec (ctx fl fuel (d + 3)) fuel Src.MakeArrayString.body1 s) .bytes (formatType fun s => (fl.parse s).isSome) ?_ l [91] fun i => .int i
    · generalize hj : [91] ++ eachComma (l.map (formatType fun s => (fl.parse s).isSome)) = J at e
      have hj' : 91 :: eachComma (l.map (formatType fun s => (fl.parse s).isSome)) = J := hj
      have hJ : J ≠ [] := by rw [← hj]; simp
      run_go [Func.run, Src.MakeArrayString, bindParams, MakeArrayString, optVal, Option.map_some, makeArr, Src.MakeArrayString.for1, e, hj', closeWith, slice_dropLast J hJ]
    · intro i js a
      run_go [Src.MakeArrayString.body1, Env.new, List.append_assoc]

theorem run_MakeArrayInt (values : Option (List Int)) :
    (jin fl).fn fuel (d + 2) (go% MakeArrayInt) sp [optVal .ints values] = .ok [.bytes (MakeArrayInt values)] := by
  rw [fn_run (g := Src.MakeArrayInt) rfl]
  have ha : bArr = [91, 93] := rfl
  cases values with
  | none => run_go [Func.run, Src.MakeArrayInt, bindParams, MakeArrayInt, optVal, Option.map_none, makeArr, ha]
  | some l =>
    have e := range_comma (k := 0) (v := go% v) (ρ := [(0, .nil), (go% values, .ints l)])
      (body := fun s => exec (ctx fl fuel (d + 1)) fuel Src.MakeArrayInt.body1 s) .int itoa ?_ l [91] fun i => .int i
    · generalize hj : [91] ++ eachComma (l.map itoa) = J at e
      have hj' : 91 :: eachComma (l.map itoa) = J := hj
      have hJ : J ≠ [] := by rw [← hj]; simp
      run_go [Func.run, Src.MakeArrayInt, bindParams, MakeArrayInt, optVal, Option.map_some, makeArr, Src.MakeArrayInt.for1, e, hj', closeWith, slice_dropLast J hJ]
    · intro i js a
      run_go [Src.MakeArrayInt.body1, Env.new, List.append_assoc]

theorem run_MakeArrayBytes (values : Option (List Bytes)) :
    (jin fl).fn fuel (d + 1) (go% MakeArrayBytes) true [optVal .strs values] = .ok [.bytes (MakeArrayBytes values)] := by
  rw [fn_run (g := Src.MakeArrayBytes) rfl]
  have ha : bArr = [91, 93] := rfl
  cases values with
  | none => run_go [Func.run, Src.MakeArrayBytes, bindParams, MakeArrayBytes, optVal, makeArr, ha]
  | some l =>
    have e := range_comma (k := 0) (v := go% v) (ρ := [(0, .nil), (go% values, .strs l)])
      (body := fun s => exec (ctx fl fuel d) fuel Src.MakeArrayBytes.body1 s) .bytes id ?_ l [91] fun i => .int i
    · rw [List.map_id] at e
      generalize hj : [91] ++ eachComma l = J at e
      have hj' : 91 :: eachComma l = J := hj
      have hJ : J ≠ [] := by rw [← hj]; simp
      run_go [Func.run, Src.MakeArrayBytes, bindParams, MakeArrayBytes, optVal, makeArr, Src.MakeArrayBytes.for1, e, hj', closeWith, slice_dropLast J hJ]
    · intro i js a
      run_go [Src.MakeArrayBytes.body1, Env.new, List.append_assoc, id]

theorem range_comma2 {α : Type} {k v : Id} {body : St Unit → Res Unit} {pre ρ : Env} (inj : α → Val) (txt : α → Bytes)
    (hb : ∀ (i : Val) (js : Bytes) (a : α),
      (body ⟨(), Env.new v (inj a) (Env.new k i ((0, .nil) :: (pre ++ (go% js, .bytes js) :: ρ)))⟩).leave.goes =
        some ⟨(), pre ++ (go% js, .bytes (js ++ (txt a ++ [44]))) :: ρ⟩) (l : List α) :
    ∀ (js : Bytes) (f : Nat → Val), rangeN k v body (l.mapIdx fun i c => (f i, inj c)) ⟨(), pre ++ (go% js, .bytes js) :: ρ⟩ =
      .norm ⟨(), pre ++ (go% js, .bytes (js ++ eachComma (l.map txt))) :: ρ⟩ := by
  induction l with
  | nil => intro js f; simp [rangeN, eachComma]
  | cons a l ih =>
    intro js f
    rw [List.mapIdx_cons, rangeN]
    have h := hb (f 0) js a
    have e := ih (js ++ (txt a ++ [44])) fun i => f (i + 1)
    have e2 : js ++ eachComma ((a :: l).map txt) = js ++ (txt a ++ [44]) ++ eachComma (l.map txt) := by simp [eachComma]
    rw [e2]
    cases h3 : (body ⟨(), Env.new v (inj a) (Env.new k (f 0) ((0, .nil) :: (pre ++ (go% js, .bytes js) :: ρ)))⟩).leave <;>
      simp only [h3, Res.goes, Option.some.injEq, reduceCtorEq] at h <;> subst h <;> exact e

theorem run_MakeArrayBool (values : Option (List Bool)) :
    (jin fl).fn fuel (d + 1) (go% MakeArrayBool) sp [optVal .bools values] = .ok [.bytes (MakeArrayBool values)] := by
  rw [fn_run (g := Src.MakeArrayBool) rfl]
  have ha : bArr = [91, 93] := rfl
  cases values with
  | none => run_go [Func.run, Src.MakeArrayBool, bindParams, MakeArrayBool, optVal, Option.map_none, makeArr, ha]
  | some l =>
    have e := range_comma2 (k := 0) (v := go% v) (pre := [(go% f, .bytes [102, 97, 108, 115, 101]), (go% t, .bytes [116, 114, 117, 101])])
      (ρ := [(0, .nil), (go% values, .bools l)])
      (body := fun s => exec (ctx fl fuel d) fuel Src.MakeArrayBool.body1 s) .bool boolText ?_ l [91] fun i => .int i
    · generalize hj : [91] ++ eachComma (l.map boolText) = J at e
      have hj' : 91 :: eachComma (l.map boolText) = J := hj
      have hJ : J ≠ [] := by rw [← hj]; simp
      simp only [List.cons_append, List.nil_append] at e
      run_go [Func.run, Src.MakeArrayBool, bindParams, MakeArrayBool, optVal, Option.map_some, makeArr, Src.MakeArrayBool.for1, e, hj', closeWith, slice_dropLast J hJ]
    · intro i js a
      cases a <;> run_go [Src.MakeArrayBool.body1, Env.new, List.append_assoc, List.cons_append, List.nil_append, boolText, bTrue, bFalse]

theorem maf_for2 (num : Bytes) (hf : num.length < fuel) (ρ : Env) :
    exec (ctx fl fuel d) fuel Src.MakeArrayFloat.for2 ⟨(), (go% start, .int 0) :: (go% num, .bytes num) :: ρ⟩ =
      .norm ⟨(), (go% start, .int (lastE num num.length : Nat)) :: (go% num, .bytes num) :: ρ⟩ := by
  run_go [Src.MakeArrayFloat.for2]
  refine (congrArg Res.leave (loop_while (W := Unit) (σ := Nat × Nat)
    (fun s => ⟨(), (go% i, .int s.1) :: (0, .nil) :: (go% start, .int s.2) :: (go% num, .bytes num) :: ρ⟩)
    (fun s => decide (s.1 < num.length)) (fun s => (s.1 + 1, lastE num (s.1 + 1))) (fun _ => (num.length, lastE num num.length))
    (fun s => s.1 ≤ num.length ∧ s.2 = lastE num s.1) (fun s => num.length - s.1) ?_ ?_ ?_ fuel (0, 0) ⟨Nat.zero_le _, rfl⟩ (by simpa using hf))).trans ?_
  · intro s _
    run_go []
  · intro s hI hp
    obtain ⟨i, a⟩ := s
    obtain ⟨hI, ha⟩ := hI
    simp only at ha hI
    subst ha
    have hi : i < num.length := by simpa using hp
    obtain ⟨c, hc⟩ := getElem?_of_lt hi
    cases h : c == 101
    · refine ⟨_, by run_go [Src.MakeArrayFloat.body2, hc, h]; rfl, by run_go [lastE, hc, h, Option.some_beq_some]; try rfl, ⟨hi, rfl⟩, by simp; omega⟩
    · refine ⟨_, by run_go [Src.MakeArrayFloat.body2, hc, h]; rfl, by run_go [lastE, hc, h, Option.some_beq_some]; try rfl, ⟨hi, rfl⟩, by simp; omega⟩
  · intro s hI
    obtain ⟨i, a⟩ := s
    obtain ⟨hI, ha⟩ := hI
    simp only at ha hI
    subst ha
    by_cases h : i < num.length
    · simp [h]
    · have : i = num.length := by omega
      simp [this]
  · rfl

theorem maf_body (x : UInt64) (js : Bytes) (ρ : Env) (hf : (fl.format x).length < fuel) :
    (exec (ctx fl fuel (d + 1)) fuel Src.MakeArrayFloat.body1 ⟨(), (go% v, .float x) :: (0, .nil) :: (go% js, .bytes js) :: ρ⟩).leave =
      match floatItem (fl.format x) with
      | .ok it => .norm ⟨(), (go% js, .bytes (js ++ (it ++ [44]))) :: ρ⟩
      | _ => .panic := by
  generalize hn : fl.format x = num at *
  have e2 := maf_for2 (fl := fl) (d := d + 1) num hf ((0, .nil) :: (go% v, .float x) :: (0, .nil) :: (go% js, .bytes js) :: ρ)
  rw [floatItem]
  generalize lastE num num.length = st at *
  have hst : (st : Int) + 2 = ((st + 2 : Nat) : Int) := by omega
  rcases slice_cases num ((st : Int) + 2) num.length with ⟨t, h⟩ | h
  · rcases slice_cases num 0 st with ⟨t', h'⟩ | h' <;> cases h2 : atoi t with
    | some n => cases h3 : n == 0 <;> run_go [Src.MakeArrayFloat.body1, hn, e2, h, h', h2, h3, orErr, Option.map_some, Option.map_none, List.append_assoc, Option.getD_some, Option.getD_none]
    | none => cases h3 : atoiBad t == 0 <;> run_go [Src.MakeArrayFloat.body1, hn, e2, h, h', h2, h3, orErr, Option.map_some, Option.map_none, List.append_assoc, Option.getD_some, Option.getD_none]
  · run_go [Src.MakeArrayFloat.body1, hn, e2, h]

theorem maf_for1 (l : List UInt64) (hf : ∀ x ∈ l, (fl.format x).length < fuel) (ρ : Env) :
    ∀ (js : Bytes) (f : Nat → Val),
    rangeN 0 (go% v) (fun s => exec (ctx fl fuel (d + 1)) fuel Src.MakeArrayFloat.body1 s) (l.mapIdx fun i c => (f i, .float c))
        ⟨(), (go% js, .bytes js) :: ρ⟩ =
      match floatItems (l.map fl.format) with
      | .ok its => .norm ⟨(), (go% js, .bytes (js ++ eachComma its)) :: ρ⟩
      | _ => .panic := by
  induction l with
  | nil => intro js f; simp [rangeN, eachComma, floatItems]
  | cons x l ih =>
    intro js f
    have h := maf_body (fl := fl) (d := d) x js ρ (hf x (List.mem_cons_self ..))
    have ih := ih (fun y hy => hf y (List.mem_cons_of_mem _ hy))
    rw [List.mapIdx_cons, rangeN, List.map_cons, floatItems]
    have e : Env.new (go% v) (.float x) (Env.new 0 (f 0) ((0, .nil) :: (go% js, .bytes js) :: ρ)) =
        (go% v, .float x) :: (0, .nil) :: (go% js, .bytes js) :: ρ := rfl
    simp only [e, h]
    cases h1 : floatItem (fl.format x) with
    | ok it =>
      simp only [Out.bind_ok, ih]
      cases h2 : floatItems (l.map fl.format) <;> simp [eachComma]
    | err e => rfl
    | panic => rfl

theorem run_MakeArrayFloat (values : Option (List UInt64)) (hf : ∀ l, values = some l → ∀ x ∈ l, (fl.format x).length < fuel) :
    (jin fl).fn fuel (d + 2) (go% MakeArrayFloat) sp [optVal .floats values] = 
      match MakeArrayFloat fl values with
      | .ok b => .ok [.bytes b]
      | _ => .panic := by
  rw [fn_run (g := Src.MakeArrayFloat) rfl]
  have ha : bArr = [91, 93] := rfl
  cases values with
  | none => run_go [Func.run, Src.MakeArrayFloat, bindParams, MakeArrayFloat, optVal, makeArr, ha]
  | some l =>
    have e := maf_for1 (d := d) l (hf l rfl) [(0, .nil), (go% values, .floats l)] [91] fun i => .int i
    cases h : floatItems (l.map fl.format) with
    | ok its =>
      rw [h] at e
      generalize hj : [91] ++ eachComma its = J at e
      have hj' : 91 :: eachComma its = J := hj
      have hJ : J ≠ [] := by rw [← hj]; simp
      run_go [Func.run, Src.MakeArrayFloat, bindParams, MakeArrayFloat, optVal, makeArr, Src.MakeArrayFloat.for1, h, e, hj', closeWith, slice_dropLast J hJ]
    | err _ =>
      rw [h] at e
      run_go [Func.run, Src.MakeArrayFloat, bindParams, MakeArrayFloat, optVal, makeArr, Src.MakeArrayFloat.for1, h, e]
    | panic =>
      rw [h] at e
      run_go [Func.run, Src.MakeArrayFloat, bindParams, MakeArrayFloat, optVal, makeArr, Src.MakeArrayFloat.for1, h, e]

theorem mjs_for1 (keys vs : List Bytes) (ks : List Bytes) :
    ∀ (js : Bytes) (m : Nat), ks.length + m = vs.length →
    rangeN (go% i) (go% k) (fun s => exec (ctx fl fuel (d + 3)) fuel Src.MakeJsonString.body1 s) (ks.mapIdx fun i c => (.int ((m + i : Nat) : Int), .bytes c))
        ⟨(), [(go% js, .bytes js), (0, .nil), (go% keys, .strs keys), (go% values, .strs vs)]⟩ =
      .norm ⟨(), [(go% js, .bytes (js ++ eachComma ((ks.zip ((vs.drop m).map (formatType fun s => (fl.parse s).isSome))).map fun x => memberText x.1 x.2))),
        (0, .nil), (go% keys, .strs keys), (go% values, .strs vs)]⟩ := by
  induction ks with
  | nil => intro js m _; simp [rangeN, eachComma]
  | cons k ks ih =>
    intro js m hm
    have hlt : m < vs.length := by simp at hm; omega
    have hv := List.getElem?_eq_getElem hlt
    have ih := ih (js ++ memberText k (formatType (fun s => (fl.parse s).isSome) vs[m]) ++ [44]) (m + 1) (by simp at hm; omega)
    have e : (fun (i : Nat) (c : Bytes) => (Val.int ((m + 1 + i : Nat) : Int), Val.bytes c)) = 
      fun i c => (Val.int ((m + (i + 1) : Nat) : Int), Val.bytes c) := by
      funext i c; rw [show m + 1 + i = m + (i + 1) by omega]
    rw [e] at ih
    rw [List.mapIdx_cons, rangeN, List.drop_eq_getElem_cons hlt]
    simp only [List.map_cons, List.zip_cons_cons, Nat.add_zero]
    generalize vs[m] = w at *
    have hb : (exec (ctx fl fuel (d + 3)) fuel Src.MakeJsonString.body1 ⟨(), Env.new (go% k) (.bytes k) (Env.new (go% i) (.int (m : Int))
        ((0, .nil) :: [(go% js, .bytes js), (0, .nil), (go% keys, .strs keys), (go% values, .strs vs)]))⟩).leave = 
        .norm ⟨(), [(go% js, .bytes (js ++ memberText k (formatType (fun s => (fl.parse s).isSome) w) ++ [44])),
        (0, .nil), (go% keys, .strs keys), (go% values, .strs vs)]⟩ := by
      run_go [Src.MakeJsonString.body1, Env.new, hv, memberText, List.append_assoc, List.cons_append, List.nil_append]
    simp only [hb]
    refine ih.trans ?_
    simp [eachComma]

/-- The nil result for slices of different lengths is `[]` in the model. -/
theorem run_MakeJsonString (keys : Option (List Bytes)) (values : List Bytes) :
    (jin fl).fn fuel (d + 4) (go% MakeJsonString) sp [optVal .strs keys, .strs values] =
      if (keys.getD []).length = values.length then .ok [.bytes (MakeJsonString (fun s => (fl.parse s).isSome) keys values)] else .ok [.nil] := by
  rw [fn_run (g := Src.MakeJsonString) rfl]
  cases keys with
  | none =>
    cases values with
    | nil => run_go [Func.run, Src.MakeJsonString, bindParams, MakeJsonString, optVal, Option.getD_none, List.length_nil]; rfl
    | cons v vs => 
      have h : ((0 : Int) == ((v :: vs).length : Int)) = false := beq_eq_false_iff_ne.2 (by simp; omega)
      have h' : ¬ 0 = (v :: vs).length := by simp
      run_go [Func.run, Src.MakeJsonString, bindParams, MakeJsonString, optVal, Option.getD_none, List.length_nil, h, h']
  | some ks =>
    by_cases h : ks.length = values.length
    · have e := mjs_for1 (fl := fl) (fuel := fuel) (d := d) ks values ks [123] 0 h
      simp only [Nat.zero_add, List.drop_zero] at e
      generalize hj : [123] ++ eachComma ((ks.zip (values.map (formatType fun s => (fl.parse s).isSome))).map fun x => memberText x.1 x.2) = J at e
      have hj' : 123 :: eachComma ((ks.zip (values.map (formatType fun s => (fl.parse s).isSome))).map fun x => memberText x.1 x.2) = J := hj
      have hJ : J ≠ [] := by rw [← hj]; simp
      have h1 : ((ks.length : Int) == (values.length : Int)) = true := by simp [h]
      have h2 : (ks.length != values.length) = false := by simp [h]
      run_go [Func.run, Src.MakeJsonString, bindParams, MakeJsonString, optVal, Option.getD_some, h1, h2, h, Src.MakeJsonString.for1, e, makeObj, hj', closeWith, slice_dropLast J hJ]
    · have h1 : ((ks.length : Int) == (values.length : Int)) = false := beq_eq_false_iff_ne.2 (by omega)
      run_go [Func.run, Src.MakeJsonString, bindParams, optVal, Option.getD_some, h1, h]

end

end Jin.Go
