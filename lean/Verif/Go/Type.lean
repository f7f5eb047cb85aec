import Verif.Go.AddMore
import Verif.Model.Iter
/-!
# Go.Type — the text of `inter_type.go`
-/

namespace Jin.Go

/-- What `typeControlCore` returns. -/
def typeVals : Out (Bool × Nat) → R (List Val)
  | .ok (b, n) => .ok [.bool b, .int n, .nil]
  | .err e => .ok [.bool false, .int (-1), .err e]
  | .panic => .panic

/-- The names of the types, inter_type.go:5-12. -/
def typeName : JType → Bytes
  | .array => [97, 114, 114, 97, 121]
  | .object => [111, 98, 106, 101, 99, 116]
  | .string => [115, 116, 114, 105, 110, 103]
  | .boolean => [98, 111, 111, 108, 101, 97, 110]
  | .null => [110, 117, 108, 108]
  | .number => [110, 117, 109, 98, 101, 114]

/-- `oneVal` as the end of a body. -/
def oneRes {α : Type} (f : α → Val) (bad : Val) : Out α → Res Unit
  | .ok a => .ret () [f a, .nil]
  | .err e => .ret () [bad, .err e]
  | .panic => .panic

theorem one_body {α : Type} {ok : α → Val} {bad : Val} {f : Func} {Γ : Ctx Unit} {fuel : Nat} {sp : Bool} {args : List Val} {env : Env} {m : Out α}
    (h1 : bindParams f.variadic sp f.params args = .ok env) (h2 : exec Γ fuel f.body ⟨(), env⟩ = oneRes ok bad m) :
    ((f.run Γ fuel sp args ()).bind fun r => .ok r.2) = oneVal ok bad m := by
  rw [Func.run, h1]
  simp only [R.bind, h2]
  cases m <;> rfl

@[go_run] theorem oneRes_leave {α : Type} {ok : α → Val} {bad : Val} (m : Out α) : (oneRes ok bad m).leave = oneRes ok bad m := by
  cases m <;> rfl

section
variable {fl : FloatLib UInt64} {fuel d : Nat} {sp : Bool} {json : Bytes} {path : List Bytes}

@[go_run] theorem const_TypeArray : (ctx fl fuel d).const (go% TypeArray) = some (.bytes (typeName .array)) := rfl
@[go_run] theorem const_TypeObject : (ctx fl fuel d).const (go% TypeObject) = some (.bytes (typeName .object)) := rfl
@[go_run] theorem const_TypeString : (ctx fl fuel d).const (go% TypeString) = some (.bytes (typeName .string)) := rfl
@[go_run] theorem const_TypeBoolean : (ctx fl fuel d).const (go% TypeBoolean) = some (.bytes (typeName .boolean)) := rfl
@[go_run] theorem const_TypeNull : (ctx fl fuel d).const (go% TypeNull) = some (.bytes (typeName .null)) := rfl
@[go_run] theorem const_TypeNumber : (ctx fl fuel d).const (go% TypeNumber) = some (.bytes (typeName .number)) := rfl

@[go_run] theorem run_parseInt64 (s : Bytes) : (jin fl).fn fuel (d + 1) (go% strconv.ParseInt) sp [.bytes s, .int 10, .int 64] =
    orErr ((parseIntBits 64 s).map .int) (.int 0) := fn_lib rfl ..

theorem tcc_for1 (hf : json.length < fuel) (c e : Val) :
    exec (ctx fl fuel (d + 1)) fuel Src.typeControlCore.for1 ⟨(), [(go% err, .nil), (go% start, .int 0), (0, .nil), (go% json, .bytes json),
      (go% control, c), (go% equal, e), (go% path, .strs path)]⟩ =
    match skipSpaces json 0 with
    | some j => .norm ⟨(), [(go% err, .nil), (go% start, .int j), (0, .nil), (go% json, .bytes json),
      (go% control, c), (go% equal, e), (go% path, .strs path)]⟩
    | none => .panic := by
  run_go [Src.typeControlCore.for1]
  refine (loop_skip (json := json) (fun j => ⟨(), [(go% err, .nil), (go% start, .int j), (0, .nil), (go% json, .bytes json),
      (go% control, c), (go% equal, e), (go% path, .strs path)]⟩)
    ?_ ?_ ?_ fuel 0 (by omega)).trans ?_
  · intro i
    cases h : json[i]? <;> run_go [h]
  · intro i hi
    have h : ¬ ((json.length : Int) - 1 < i) := by omega
    run_go [Src.typeControlCore.body1, h]
    rfl
  · intro i; run_go []
  · rfl

/-- The loop over the bytes of `control`. -/
theorem tcc_range (start : Nat) (c : UInt8) (hc : json[start]? = some c) (equal : Bool) (ct e : Val) (ρ : Env) : ∀ (control : Bytes) (items : List (Val × Val)),
    items.map Prod.snd = control.map .byte →
    rangeN 0 (go% v) (fun s => exec (ctx fl fuel (d + 1)) fuel Src.typeControlCore.body2 s) items
      ⟨(), (go% err, e) :: (go% start, .int start) :: (0, .nil) :: (go% json, .bytes json) :: (go% control, ct) :: (go% equal, .bool equal) :: ρ⟩ =
    if control.contains c then .ret () [.bool equal, .int start, .nil]
    else .norm ⟨(), (go% err, e) :: (go% start, .int start) :: (0, .nil) :: (go% json, .bytes json) :: (go% control, ct) :: (go% equal, .bool equal) :: ρ⟩ := by
  intro control
  induction control with
  | nil =>
    intro items h
    cases items with
    | nil => rfl
    | cons => cases h
  | cons a control ih =>
    intro items h
    cases items with
    | nil => cases h
    | cons it items =>
      obtain ⟨k, x⟩ := it
      simp only [List.map_cons, List.cons.injEq] at h
      obtain ⟨rfl, h⟩ := h
      rw [rangeN, List.contains_cons]
      cases h1 : c == a
      · rw [Bool.false_or, ← ih items h]
        run_go [Env.new, Src.typeControlCore.body2, hc, h1]
      · cases equal <;> run_go [Env.new, Src.typeControlCore.body2, hc, h1]

theorem tcc_for2 (start : Nat) (equal : Bool) (e : Val) (control : Bytes) (ρ : Env) :
    exec (ctx fl fuel (d + 1)) fuel Src.typeControlCore.for2
      ⟨(), (go% err, e) :: (go% start, .int start) :: (0, .nil) :: (go% json, .bytes json) :: (go% control, .bytes control) :: (go% equal, .bool equal) :: ρ⟩ =
    if control = [] then
      .norm ⟨(), (go% err, e) :: (go% start, .int start) :: (0, .nil) :: (go% json, .bytes json) :: (go% control, .bytes control) :: (go% equal, .bool equal) :: ρ⟩
    else match json[start]? with
    | none => .panic
    | some c => if control.contains c then .ret () [.bool equal, .int start, .nil] else
      .norm ⟨(), (go% err, e) :: (go% start, .int start) :: (0, .nil) :: (go% json, .bytes json) :: (go% control, .bytes control) :: (go% equal, .bool equal) :: ρ⟩ := by
  run_go [Src.typeControlCore.for2]
  cases control with
  | nil => rfl
  | cons a control =>
    rw [if_neg (List.cons_ne_nil _ _)]
    cases hc : json[start]? with
    | none =>
      rw [List.mapIdx_cons, rangeN]
      run_go [Env.new, Src.typeControlCore.body2, hc]
    | some c =>
      rw [tcc_range start c hc equal _ e ρ (a :: control)]
      refine List.ext_getElem? fun n => ?_
      simp only [List.getElem?_mapIdx, List.getElem?_map, Option.map_map]
      rfl

theorem run_typeControlCore (hf : need json path < fuel) (control : Bytes) (equal : Bool) :
    (jin fl).fn fuel (d + 3) (go% typeControlCore) true [.bytes json, .bytes control, .bool equal, .strs path] =
      typeVals (typeControlCore json control equal path) := by
  rw [fn_run (g := Src.typeControlCore) rfl]
  have hf' : json.length < fuel := by unfold need at hf; omega
  cases h1 : json.length == 0
  rotate_left
  · run_go [Func.run, Src.typeControlCore, bindParams, typeControlCore, h1, typeVals]
  have e2 := fun start => tcc_for2 (fl := fl) (fuel := fuel) (d := d + 1) (json := json) start equal .nil control [(go% path, .strs path)]
  cases hp : path.length == 0
  · cases h : core json true path with
    | err e => run_go [Func.run, Src.typeControlCore, bindParams, typeControlCore, h1, hp, valueStart, typeVals, run_core hf, h, locVals]
    | panic => run_go [Func.run, Src.typeControlCore, bindParams, typeControlCore, h1, hp, valueStart, typeVals, run_core hf, h, locVals]
    | ok l =>
      cases control with
      | nil => cases equal <;> run_go [Func.run, Src.typeControlCore, bindParams, typeControlCore, h1, hp, valueStart, typeVals, run_core hf, h, locVals, e2, List.isEmpty_nil]
      | cons a control =>
        cases hc : json[l.start]? with
        | none => cases equal <;> run_go [Func.run, Src.typeControlCore, bindParams, typeControlCore, h1, hp, valueStart, typeVals, run_core hf, h, locVals, e2, List.isEmpty_cons, reduceCtorEq, hc, idx_nat, outOpt]
        | some c =>
          cases h2 : (a :: control).contains c <;> cases equal <;>
          run_go [Func.run, Src.typeControlCore, bindParams, typeControlCore, h1, hp, valueStart, typeVals, run_core hf, h, locVals, e2, List.isEmpty_cons, reduceCtorEq, hc, idx_nat, outOpt, h2]
  · have e1 := tcc_for1 (fl := fl) (d := d + 1) (json := json) (path := path) hf' (.bytes control) (.bool equal)
    cases h2 : skipSpaces json 0 with
    | none =>
      rw [h2] at e1
      run_go [Func.run, Src.typeControlCore, bindParams, typeControlCore, h1, hp, valueStart, typeVals, e1, h2]
    | some s =>
      rw [h2] at e1
      obtain ⟨c, hc, -⟩ := skipSpaces_some h2
      cases control with
      | nil => cases equal <;> run_go [Func.run, Src.typeControlCore, bindParams, typeControlCore, h1, hp, valueStart, typeVals, e1, h2, e2, List.isEmpty_nil]
      | cons a control =>
        cases h3 : (a :: control).contains c <;> cases equal <;>
        run_go [Func.run, Src.typeControlCore, bindParams, typeControlCore, h1, hp, valueStart, typeVals, e1, h2, e2, List.isEmpty_cons, reduceCtorEq, hc, idx_nat, outOpt, h3]

@[go_run] theorem run_IsObject (hf : need json path < fuel) :
    (jin fl).fn fuel (d + 4) (go% IsObject) true [.bytes json, .strs path] = oneVal .bool (.bool false) (IsObject json path) := by
  rw [fn_run (g := Src.IsObject) rfl]
  cases h : typeControlCore json [91, 123] true path <;>
    run_go [Func.run, Src.IsObject, bindParams, IsObject, run_typeControlCore hf, h, typeVals, oneVal, Out.map]

@[go_run] theorem run_IsArray (hf : need json path < fuel) :
    (jin fl).fn fuel (d + 4) (go% IsArray) true [.bytes json, .strs path] = oneVal .bool (.bool false) (IsArray json path) := by
  rw [fn_run (g := Src.IsArray) rfl]
  cases h : typeControlCore json [91] true path <;>
    run_go [Func.run, Src.IsArray, bindParams, IsArray, run_typeControlCore hf, h, typeVals, oneVal, Out.map]

@[go_run] theorem run_IsValue (hf : need json path < fuel) :
    (jin fl).fn fuel (d + 4) (go% IsValue) true [.bytes json, .strs path] = oneVal .bool (.bool false) (IsValue json path) := by
  rw [fn_run (g := Src.IsValue) rfl]
  cases h : typeControlCore json [91, 123] false path <;>
    run_go [Func.run, Src.IsValue, bindParams, IsValue, run_typeControlCore hf, h, typeVals, oneVal, Out.map]

@[go_run] theorem run_GetType (hf : need json path < fuel) :
    (jin fl).fn fuel (d + 5) (go% GetType) true [.bytes json, .strs path] =
      oneVal (fun t => .bytes (typeName t)) (.bytes []) (GetType (fun s => (fl.parse s).isSome) json path) := by
  rw [fn_run (g := Src.GetType) rfl]
  have ht : bTrue = [116, 114, 117, 101] := rfl
  have hg : bFalse = [102, 97, 108, 115, 101] := rfl
  have hn : bNull = [110, 117, 108, 108] := rfl
  cases h : typeControlCore json [] false path with
  | err e => run_go [Func.run, Src.GetType, bindParams, GetType, run_typeControlCore hf, h, typeVals, oneVal]
  | panic => run_go [Func.run, Src.GetType, bindParams, GetType, run_typeControlCore hf, h, typeVals, oneVal]
  | ok r =>
    obtain ⟨b, start⟩ := r
    cases hc : json[start]? with
    | none => run_go [Func.run, Src.GetType, bindParams, GetType, run_typeControlCore hf, h, typeVals, oneVal, hc, idx_nat, outOpt]
    | some c =>
      cases h1 : c == 91
      rotate_left
      · run_go [Func.run, Src.GetType, bindParams, GetType, run_typeControlCore hf, h, typeVals, oneVal, hc, idx_nat, outOpt, h1]
      cases h2 : c == 123
      rotate_left
      · run_go [Func.run, Src.GetType, bindParams, GetType, run_typeControlCore hf, h, typeVals, oneVal, hc, idx_nat, outOpt, h1, h2]
      cases h3 : c == 34
      rotate_left
      · run_go [Func.run, Src.GetType, bindParams, GetType, run_typeControlCore hf, h, typeVals, oneVal, hc, idx_nat, outOpt, h1, h2, h3]
      cases h4 : GetString json path with
      | err e => run_go [Func.run, Src.GetType, bindParams, GetType, run_typeControlCore hf, h, typeVals, oneVal, hc, idx_nat, outOpt, h1, h2, h3, run_GetString hf, h4]
      | panic => run_go [Func.run, Src.GetType, bindParams, GetType, run_typeControlCore hf, h, typeVals, oneVal, hc, idx_nat, outOpt, h1, h2, h3, run_GetString hf, h4]
      | ok v =>
        cases h5 : v == bTrue <;> cases h6 : v == bFalse <;> cases h7 : v == bNull <;> cases h8 : parseIntBits 64 v <;>
          cases h9 : fl.parse v <;>
          run_go [Func.run, Src.GetType, bindParams, GetType, run_typeControlCore hf, h, typeVals, oneVal, hc, idx_nat, outOpt, h1, h2, h3,
            run_GetString hf, h4, ← ht, ← hg, ← hn, h5, h6, h7, h8, h9, orErr, Option.map_some, Option.map_none, Option.isSome_some, Option.isSome_none]

/-! ### IsEmpty -/

theorem ie_for1 (hf : json.length < fuel) (e : Val) :
    exec (ctx fl fuel (d + 1)) fuel Src.IsEmpty.for1 ⟨(), [(go% err, .nil), (go% «end», e), (go% start, .int 0), (0, .nil), (go% json, .bytes json),
      (go% path, .strs path)]⟩ =
    match skipSpaces json 0 with
    | some j => .norm ⟨(), [(go% err, .nil), (go% «end», e), (go% start, .int j), (0, .nil), (go% json, .bytes json), (go% path, .strs path)]⟩
    | none => .panic := by
  run_go [Src.IsEmpty.for1]
  refine (loop_skip (json := json) (fun j => ⟨(), [(go% err, .nil), (go% «end», e), (go% start, .int j), (0, .nil), (go% json, .bytes json),
      (go% path, .strs path)]⟩)
    ?_ ?_ ?_ fuel 0 (by omega)).trans ?_
  · intro i
    cases h : json[i]? <;> run_go [h]
  · intro i hi
    have h : ¬ ((json.length : Int) - 1 < i) := by omega
    run_go [Src.IsEmpty.body1, h]
    rfl
  · intro i; run_go []
  · rfl

theorem ie_for2 (hf : json.length < fuel) {start : Nat} {c : UInt8} (hc : json[start]? = some c) (hs : space c = false) :
    exec (ctx fl fuel (d + 1)) fuel Src.IsEmpty.for2 ⟨(), [(go% err, .nil), (go% «end», .int (json.length - 1)), (go% start, .int start),
      (0, .nil), (go% json, .bytes json), (go% path, .strs path)]⟩ =
    match skipSpacesDown json json.length with
    | some j => .norm ⟨(), [(go% err, .nil), (go% «end», .int j), (go% start, .int start), (0, .nil), (go% json, .bytes json), (go% path, .strs path)]⟩
    | none => .panic := by
  run_go [Src.IsEmpty.for2]
  refine (loop_skip_down (json := json) (lo := start) (fun j => ⟨(), [(go% err, .nil), (go% «end», .int j), (go% start, .int start),
      (0, .nil), (go% json, .bytes json), (go% path, .strs path)]⟩) ⟨c, hc, hs⟩
    ?_ ?_ fuel json.length (List.getElem?_eq_some_iff.1 hc).1 hf (Nat.le_refl _)).trans ?_
  · intro i
    cases h : json[i]? <;> run_go [h]
  · intro i hi _
    have h : ¬ ((i : Int) < 1) := by omega
    refine ⟨_, by run_go [Src.IsEmpty.body2, h]; rfl, by run_go []⟩
  · rfl

theorem ie_for3 (hf : json.length < fuel) (start stop : Nat) (hs : stop ≤ json.length) (a z : Val) (ρ : Env) :
    exec (ctx fl fuel (d + 1)) fuel Src.IsEmpty.for3 ⟨(), (go% braceEnd, z) :: (go% braceStart, a) :: (go% err, .nil) :: (go% «end», .int stop) ::
      (go% start, .int start) :: (0, .nil) :: (go% json, .bytes json) :: ρ⟩ =
    match firstNS json (start + 1) (stop - 1) with
    | some _ => .ret () [.bool false, .nil]
    | none => .norm ⟨(), (go% braceEnd, z) :: (go% braceStart, a) :: (go% err, .nil) :: (go% «end», .int stop) ::
      (go% start, .int start) :: (0, .nil) :: (go% json, .bytes json) :: ρ⟩ := by
  run_go [Src.IsEmpty.for3]
  have key := loop_first (json := json) (hi := stop - 1)
    (c := fun s => (eval (ctx fl fuel (d + 1)) s.env (.bin .lt (.var (go% i)) (.bin .sub (.var (go% «end»)) (.lit (.int 1))))).bind Val.bool?)
    (post := fun s => exec (ctx fl fuel (d + 1)) fuel (.assign (go% i) (.bin .add (.var (go% i)) (.lit (.int 1)))) s)
    (body := fun s => exec (ctx fl fuel (d + 1)) fuel Src.IsEmpty.body3 s)
    (fun i : Nat => (⟨(), (go% i, .int i) :: (0, .nil) :: (go% braceEnd, z) :: (go% braceStart, a) :: (go% err, .nil) ::
      (go% «end», .int stop) :: (go% start, .int start) :: (0, .nil) :: (go% json, .bytes json) :: ρ⟩ : St Unit))
    (fun _ => .ret () [.bool false, .nil]) ?_ (by omega) ?_ ?_ fuel (start + 1) (by omega)
  · simp only [Int.natCast_succ] at key
    rw [key]
    cases h : firstNS json (start + 1) (stop - 1) <;> rfl
  · intro i
    have h : ((i : Int) < (stop : Int) - 1) = (i < stop - 1) := by simp; omega
    run_go [h]
  · intro i c _ hc hs
    refine ⟨_, by run_go [Src.IsEmpty.body3, hc, hs]; rfl, by run_go []; rfl⟩
  · intro i c _ hc hs
    run_go [Src.IsEmpty.body3, hc, hs]

theorem idx_ok_nat {i : Int} {c : UInt8} (h : idx json i = .ok c) : ∃ n : Nat, i = n ∧ json[n]? = some c := by
  rcases Int.lt_or_le i 0 with h0 | h0
  · rw [idx, at?, if_pos h0] at h; cases h
  · obtain ⟨n, rfl⟩ := Int.eq_ofNat_of_zero_le h0
    refine ⟨n, rfl, ?_⟩
    rw [idx_nat] at h
    cases h1 : json[n]? with
    | none => rw [h1] at h; cases h
    | some x => rw [h1] at h; cases h; rfl

def ieRest (json : Bytes) (start : Nat) (stop : Int) : Out Bool := do
    let a ← idx json start
    let z ← idx json stop
    if a == 91 || a == 123 then
      if a + 2 != z then .err (.badJSON stop)
      else match firstNS json (start + 1) (stop.toNat - 1) with
        | some _ => return false
        | none => return true
    else .err .objectExpected

theorem ie_tail (hf : json.length < fuel) (start : Nat) (stop : Int) (ρ : Env) :
    exec (ctx fl fuel (d + 1)) fuel (match Src.IsEmpty.body with | .block b => b.rest 5 | s => s) ⟨(), (go% err, .nil) :: (go% «end», .int stop) ::
      (go% start, .int start) :: (0, .nil) :: (go% json, .bytes json) :: ρ⟩ = oneRes .bool (.bool false) (ieRest json start stop) := by
  have e1 := elem_idx json start
  cases h1 : json[start]? with
  | none => run_go [Src.IsEmpty, Stmt.rest, ieRest, idx_nat, h1, outOpt, oneRes]
  | some a =>
    rcases idx_cases json stop with ⟨z, h2⟩ | h2
    rotate_left
    · have e2 : elem json stop = .panic := by
        rw [elem_at]
        rw [idx] at h2
        cases h : at? json stop with
        | none => rfl
        | some c => rw [h] at h2; cases h2
      run_go [Src.IsEmpty, Stmt.rest, ieRest, idx_nat, h1, outOpt, oneRes, e2, h2]
    obtain ⟨n, rfl, h3⟩ := idx_ok_nat h2
    have hn : n ≤ json.length := Nat.le_of_lt (List.getElem?_eq_some_iff.1 h3).1
    have e3 := fun a z => ie_for3 (fl := fl) (d := d) hf start n hn a z ρ
    cases h4 : a == 91 <;> cases h5 : a == 123 <;> cases h6 : a + 2 == z <;> cases h7 : firstNS json (start + 1) (n - 1) <;> simp only [h7] at e3 <;>
      run_go [Src.IsEmpty, Stmt.rest, ieRest, idx_nat, h1, outOpt, oneRes, h3, h4, h5, h6, h7, e3, bne, Int.toNat_natCast]

@[go_run] theorem run_IsEmpty (hf : need json path < fuel) :
    (jin fl).fn fuel (d + 3) (go% IsEmpty) true [.bytes json, .strs path] = oneVal .bool (.bool false) (IsEmpty json path) := by
  rw [fn_run (g := Src.IsEmpty) rfl]
  refine one_body rfl ?_
  have hf' : json.length < fuel := by unfold need at hf; omega
  cases h1 : json.length == 0
  rotate_left
  · run_go [Src.IsEmpty, IsEmpty, h1, oneRes]
  have e3 := fun start stop => ie_tail (fl := fl) (d := d + 1) hf' start stop [(go% path, .strs path)]
  simp only [Src.IsEmpty, Stmt.rest] at e3
  have e4 : ∀ start stop, emptySpan json path = .ok (start, stop) → IsEmpty json path = ieRest json start stop := by
    intro start stop h
    simp only [IsEmpty, h1, Bool.false_eq_true, if_false, h]; rfl
  cases hp : path.length == 0
  · cases h : core json false path with
    | err e => run_go [Src.IsEmpty, IsEmpty, emptySpan, Out.map, h1, hp, run_core hf, h, locVals, oneRes]
    | panic => run_go [Src.IsEmpty, IsEmpty, emptySpan, Out.map, h1, hp, run_core hf, h, locVals, oneRes]
    | ok l =>
      rw [e4 l.start ((l.stop : Int) - 1) (by simp [emptySpan, hp, h, Out.map])]
      run_go [Src.IsEmpty, h1, hp, run_core hf, h, locVals, ↓e3]
  · have e1 := ie_for1 (fl := fl) (d := d + 1) (path := path) hf' (.int (json.length - 1))
    cases h2 : skipSpaces json 0 with
    | none =>
      rw [h2] at e1
      run_go [Src.IsEmpty, IsEmpty, emptySpan, h1, hp, e1, h2, oneRes]
    | some s =>
      rw [h2] at e1
      obtain ⟨c, hc, hs⟩ := skipSpaces_some h2
      have e2 := ie_for2 (fl := fl) (d := d + 1) (path := path) hf' hc hs
      cases h3 : skipSpacesDown json json.length with
      | none =>
        rw [h3] at e2
        run_go [Src.IsEmpty, IsEmpty, emptySpan, h1, hp, e1, h2, e2, h3, oneRes]
      | some j =>
        rw [h3] at e2
        rw [e4 s j (by simp [emptySpan, hp, h2, h3])]
        run_go [Src.IsEmpty, h1, hp, e1, e2, ↓e3]

end

end Jin.Go
