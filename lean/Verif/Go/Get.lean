import Verif.Go.Scan
import Verif.Proof.Shape
import Verif.Proof.Scan
/-!
# Go.Get — `getStartEnd`, `createTabs`, `cleanValue` and the functions that read one value
-/

namespace Jin.Go

/-- A bound on the number of rounds of the loops of `core`. -/
def need (json : Bytes) (path : List Bytes) : Nat := json.length + path.length + (path.map List.length).sum

/-- What a function returns that returns one value and an error. -/
def oneVal {α : Type} (f : α → Val) (bad : Val) : Out α → R (List Val)
  | .ok a => .ok [f a, .nil]
  | .err e => .ok [bad, .err e]
  | .panic => .panic

section
variable {fl : FloatLib UInt64} {fuel d : Nat} {sp : Bool} {json : Bytes} {path : List Bytes}

theorem len_ne_zero : (path.length == 0) = path.isEmpty := by cases path <;> rfl

theorem cv_for1 (s : Bytes) (hs : s ≠ []) (hf : s.length < fuel) (z : Int) :
    exec (ctx fl fuel (d + 1)) fuel Src.cleanValue.for1 ⟨(), [(go% «end», .int z), (go% lens, .int s.length), (go% start, .int 0),
      (0, .nil), (go% str, .bytes s)]⟩ =
    .norm ⟨(), [(go% «end», .int z), (go% lens, .int s.length),
      (go% start, .int ((firstNS s 0 (s.length - 1)).getD (s.length - 1) : Nat)), (0, .nil), (go% str, .bytes s)]⟩ := by
  have hl : 0 < s.length := by cases s <;> simp_all
  run_go [Src.cleanValue.for1]
  refine (loop_first (json := s) (hi := s.length - 1) (fun i : Nat => (⟨(), [(go% i, .int i), (0, .nil), (go% «end», .int z),
      (go% lens, .int s.length), (go% start, .int i), (0, .nil), (go% str, .bytes s)]⟩ : St Unit))
      (fun i => .norm ⟨(), [(go% «end», .int z), (go% lens, .int s.length), (go% start, .int i), (0, .nil), (go% str, .bytes s)]⟩)
      ?_ (by omega) ?_ ?_ fuel 0 (by omega)).trans ?_
  · intro i
    have h : ((i : Int) < (s.length : Int) - 1) = (i < s.length - 1) := by simp; omega
    run_go [h]
  · intro i c hi hc hs
    refine ⟨_, by run_go [Src.cleanValue.body1, hc, hs]; rfl, by run_go []; rfl⟩
  · intro i c hi hc hs
    run_go [Src.cleanValue.body1, hc, hs]
  · cases h : firstNS s 0 (s.length - 1) with
    | some j => rfl
    | none => simp only [Nat.zero_max]; rfl

theorem cv_for2 (s : Bytes) (st : Nat) (hst : st < s.length) (hf : s.length < fuel) :
    exec (ctx fl fuel (d + 1)) fuel Src.cleanValue.for2 ⟨(), [(go% «end», .int (s.length - 1)), (go% lens, .int s.length), (go% start, .int st),
      (0, .nil), (go% str, .bytes s)]⟩ =
    .norm ⟨(), [(go% «end», .int ((lastNS s (st + 1) s.length).getD st : Nat)), (go% lens, .int s.length),
      (go% start, .int st), (0, .nil), (go% str, .bytes s)]⟩ := by
  run_go [Src.cleanValue.for2]
  refine (loop_last (json := s) (lo := st + 1) (fun i : Int => (⟨(), [(go% i, .int i), (0, .nil), (go% «end», .int i),
      (go% lens, .int s.length), (go% start, .int st), (0, .nil), (go% str, .bytes s)]⟩ : St Unit))
      (fun i => .norm ⟨(), [(go% «end», .int i), (go% lens, .int s.length), (go% start, .int st), (0, .nil), (go% str, .bytes s)]⟩)
      ?_ ?_ ?_ fuel s.length (Nat.le_refl _) hf).trans ?_
  · intro i
    have h : ((st : Int) < i) = (((st + 1 : Nat) : Int) ≤ i) := by simp; omega
    run_go [h]
  · intro i c hc hs
    refine ⟨_, by run_go [Src.cleanValue.body2, hc, hs]; rfl, by run_go []⟩
  · intro i c hc hs
    run_go [Src.cleanValue.body2, hc, hs]
  · cases h : lastNS s (st + 1) s.length with
    | some j => rfl
    | none =>
      rw [show min (s.length : Int) ((st + 1 : Nat) : Int) - 1 = (st : Int) by omega]
      rfl

@[go_run] theorem run_cleanValue (s : Bytes) (hf : s.length < fuel) :
    (jin fl).fn fuel (d + 2) (go% cleanValue) sp [.bytes s] =
      (outR (cleanValue s)).bind fun b => .ok [.bytes b] := by
  rw [fn_run (g := Src.cleanValue) rfl]
  cases hs : s.length == 0
  rotate_left
  · run_go [Func.run, Src.cleanValue, bindParams, cleanValue, hs]
  · have hs' : s ≠ [] := by rintro rfl; cases hs
    have hl : 0 < s.length := by cases s <;> simp_all
    have e1 := cv_for1 (fl := fl) (d := d) s hs' hf
    simp only [cleanValue, hs, unquoteSlice, idx_nat]
    have ha : (firstNS s 0 (s.length - 1)).getD (s.length - 1) < s.length := by
      cases h : firstNS s 0 (s.length - 1) with
      | none => simp only [Option.getD_none]; omega
      | some j =>
        rcases firstNS_spec (json := s) (lo := 0) (hi := s.length - 1) with ⟨j', c, h1, h2, h3, -⟩ | h1
        · rw [h] at h1; cases h1; simp only [Option.getD_some]; omega
        · simp_all
    generalize (firstNS s 0 (s.length - 1)).getD (s.length - 1) = a at e1 ha ⊢
    have e2 := cv_for2 (fl := fl) (d := d) s a ha hf
    generalize (lastNS s (a + 1) s.length).getD a = b at e2 ⊢
    cases h1 : s[a]? with
    | none => run_go [Func.run, Src.cleanValue, bindParams, e1, e2, h1, outOpt, hs]
    | some x =>
      cases h2 : x == 34
      · run_go [Func.run, Src.cleanValue, bindParams, e1, e2, h1, h2, outOpt, hs]
        cases slice s a (b + 1) <;> rfl
      · cases h3 : s[b]? with
        | none => run_go [Func.run, Src.cleanValue, bindParams, e1, e2, h1, h2, h3, outOpt, hs]
        | some y =>
          cases h4 : y == 34
          · run_go [Func.run, Src.cleanValue, bindParams, e1, e2, h1, h2, h3, h4, outOpt, hs]
            cases slice s a (b + 1) <;> rfl
          · run_go [Func.run, Src.cleanValue, bindParams, e1, e2, h1, h2, h3, h4, outOpt, Int.sub_add_cancel, hs]
            cases slice s (a + 1) b <;> rfl

/-! ### Get -/

@[go_run] theorem run_Get (hf : need json path < fuel) :
    (jin fl).fn fuel (d + 3) (go% Get) true [.bytes json, .strs path] = oneVal .bytes .nil (Get json path) := by
  rw [fn_run (g := Src.Get) rfl]
  cases hp : path.length == 0
  rotate_left
  · run_go [Func.run, Src.Get, bindParams, Get, hp, oneVal]
  · cases h : core json false path with
    | err e => run_go [Func.run, Src.Get, bindParams, Get, hp, oneVal, run_core hf, h, locVals]
    | panic => run_go [Func.run, Src.Get, bindParams, Get, hp, oneVal, run_core hf, h, locVals]
    | ok l =>
      cases h2 : slice json l.start l.stop with
      | err e => rw [slice] at h2; split at h2 <;> cases h2
      | ok b => run_go [Func.run, Src.Get, bindParams, Get, hp, oneVal, run_core hf, h, locVals, h2]
      | panic => run_go [Func.run, Src.Get, bindParams, Get, hp, oneVal, run_core hf, h, locVals, h2]

/-- What `GetString` and the functions that call it have in common. -/
@[go_run] theorem run_GetString (hf : need json path < fuel) :
    (jin fl).fn fuel (d + 4) (go% GetString) true [.bytes json, .strs path] = oneVal .bytes (.bytes []) (GetString json path) := by
  rw [fn_run (g := Src.GetString) rfl]
  cases h : Get json path <;> run_go [Func.run, Src.GetString, bindParams, GetString, run_Get hf, h, oneVal]

@[go_run] theorem run_GetInt (hf : need json path < fuel) :
    (jin fl).fn fuel (d + 5) (go% GetInt) true [.bytes json, .strs path] = oneVal .int (.int (-1)) (GetInt json path) := by
  rw [fn_run (g := Src.GetInt) rfl]
  cases h : GetString json path with
  | ok v =>
    cases h2 : atoi v <;> run_go [Func.run, Src.GetInt, bindParams, GetInt, run_GetString hf, h, h2, oneVal, orErr, Option.map_some, Option.map_none]
  | err e => run_go [Func.run, Src.GetInt, bindParams, GetInt, run_GetString hf, h, oneVal]
  | panic => run_go [Func.run, Src.GetInt, bindParams, GetInt, run_GetString hf, h, oneVal]

@[go_run] theorem run_GetFloat (hf : need json path < fuel) :
    (jin fl).fn fuel (d + 5) (go% GetFloat) true [.bytes json, .strs path] = oneVal .float (.int (-1)) (GetFloat fl json path) := by
  rw [fn_run (g := Src.GetFloat) rfl]
  cases h : GetString json path with
  | ok v =>
    cases h2 : fl.parse v <;> run_go [Func.run, Src.GetFloat, bindParams, GetFloat, run_GetString hf, h, h2, oneVal, orErr, Option.map_some, Option.map_none]
  | err e => run_go [Func.run, Src.GetFloat, bindParams, GetFloat, run_GetString hf, h, oneVal]
  | panic => run_go [Func.run, Src.GetFloat, bindParams, GetFloat, run_GetString hf, h, oneVal]

@[go_run] theorem run_GetBool (hf : need json path < fuel) :
    (jin fl).fn fuel (d + 5) (go% GetBool) true [.bytes json, .strs path] = oneVal .bool (.bool false) (GetBool json path) := by
  rw [fn_run (g := Src.GetBool) rfl]
  have ht : bTrue = [116, 114, 117, 101] := rfl
  have hg : bFalse = [102, 97, 108, 115, 101] := rfl
  cases h : GetString json path with
  | ok v =>
    cases h2 : v == bTrue <;> cases h3 : v == bFalse <;>
      run_go [Func.run, Src.GetBool, bindParams, GetBool, run_GetString hf, h, ← ht, ← hg, h2, h3, oneVal]
  | err e => run_go [Func.run, Src.GetBool, bindParams, GetBool, run_GetString hf, h, oneVal]
  | panic => run_go [Func.run, Src.GetBool, bindParams, GetBool, run_GetString hf, h, oneVal]

/-! ### getStartEnd, createTabs -/

def twoVals : Out (Nat × Nat) → R (List Val)
  | .ok (a, b) => .ok [.int a, .int b, .nil]
  | .err e => .ok [.int (-1), .int (-1), .err e]
  | .panic => .panic

theorem gse_for1 (hf : json.length < fuel) (l p : Int) :
    exec (ctx fl fuel (d + 1)) fuel Src.getStartEnd.for1 ⟨(), [(go% lenp, .int p), (go% «end», .int 0), (go% start, .int 0), (go% err, .nil),
      (go% lenj, .int l), (0, .nil), (go% json, .bytes json), (go% path, .strs path)]⟩ =
    match skipSpaces json 0 with
    | some j => .norm ⟨(), [(go% lenp, .int p), (go% «end», .int 0), (go% start, .int j), (go% err, .nil),
      (go% lenj, .int l), (0, .nil), (go% json, .bytes json), (go% path, .strs path)]⟩
    | none => .panic := by
  run_go [Src.getStartEnd.for1]
  refine (loop_skip (json := json) (fun j => ⟨(), [(go% lenp, .int p), (go% «end», .int 0), (go% start, .int j), (go% err, .nil),
      (go% lenj, .int l), (0, .nil), (go% json, .bytes json), (go% path, .strs path)]⟩)
    ?_ ?_ ?_ fuel 0 (by omega)).trans ?_
  · intro i
    cases h : json[i]? <;> run_go [h]
  · intro i hi
    have h : ¬ ((json.length : Int) - 1 < i) := by omega
    run_go [Src.getStartEnd.body1, h]
    rfl
  · intro i; run_go []
  · rfl

theorem gse_for2 (hf : json.length < fuel) (l p : Int) {start : Nat} {c : UInt8} (hc : json[start]? = some c) (hs : space c = false) :
    exec (ctx fl fuel (d + 1)) fuel Src.getStartEnd.for2 ⟨(), [(go% lenp, .int p), (go% «end», .int (json.length - 1)), (go% start, .int start), (go% err, .nil),
      (go% lenj, .int l), (0, .nil), (go% json, .bytes json), (go% path, .strs path)]⟩ =
    match skipSpacesDown json json.length with
    | some j => .norm ⟨(), [(go% lenp, .int p), (go% «end», .int j), (go% start, .int start), (go% err, .nil),
      (go% lenj, .int l), (0, .nil), (go% json, .bytes json), (go% path, .strs path)]⟩
    | none => .panic := by
  run_go [Src.getStartEnd.for2]
  refine (loop_skip_down (json := json) (lo := start) (fun j => ⟨(), [(go% lenp, .int p), (go% «end», .int j), (go% start, .int start), (go% err, .nil),
      (go% lenj, .int l), (0, .nil), (go% json, .bytes json), (go% path, .strs path)]⟩) ⟨c, hc, hs⟩
    ?_ ?_ fuel json.length (List.getElem?_eq_some_iff.1 hc).1 hf (Nat.le_refl _)).trans ?_
  · intro i
    cases h : json[i]? <;> run_go [h]
  · intro i hi _
    have h : ¬ (i < start) := by omega
    refine ⟨_, by run_go [Src.getStartEnd.body2, h]; rfl, by run_go []⟩
  · rfl

theorem skipSpaces_some {i j : Nat} (h : skipSpaces json i = some j) : ∃ c, json[j]? = some c ∧ space c = false := by
  rw [skipSpaces] at h
  split at h
  · cases h
  · split at h
    · exact skipSpaces_some h
    · cases h; exact ⟨_, ‹_›, by simp_all⟩
termination_by json.length - i
decreasing_by
  have := (List.getElem?_eq_some_iff.1 (by assumption)).1
  omega

@[go_run] theorem run_getStartEnd (hf : need json path < fuel) :
    (jin fl).fn fuel (d + 3) (go% getStartEnd) true [.bytes json, .strs path] = twoVals (getStartEnd json path) := by
  rw [fn_run (g := Src.getStartEnd) rfl]
  by_cases h1 : json.length < 2
  · run_go [Func.run, Src.getStartEnd, bindParams, getStartEnd, lt_two, h1, twoVals]
  cases hp : path.length == 0
  · cases h : core json false path <;>
      run_go [Func.run, Src.getStartEnd, bindParams, getStartEnd, lt_two, h1, hp, twoVals, run_core hf, h, locVals]
  · have hf' : json.length < fuel := by unfold need at hf; omega
    have e1 := gse_for1 (fl := fl) (d := d + 1) (json := json) (path := path) hf' json.length path.length
    cases h2 : skipSpaces json 0 with
    | none =>
      rw [h2] at e1
      run_go [Func.run, Src.getStartEnd, bindParams, getStartEnd, lt_two, h1, hp, twoVals, e1, h2]
    | some a =>
      rw [h2] at e1
      obtain ⟨c, hc, hs⟩ := skipSpaces_some h2
      have e2 := gse_for2 (fl := fl) (d := d + 1) (path := path) hf' json.length path.length hc hs
      cases h3 : skipSpacesDown json json.length <;> rw [h3] at e2 <;>
        run_go [Func.run, Src.getStartEnd, bindParams, getStartEnd, lt_two, h1, hp, twoVals, e1, h2, e2, h3]

end

end Jin.Go
