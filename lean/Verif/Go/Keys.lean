import Verif.Go.Others
/-!
# Go.Keys — `GetKeys`, `GetValues`, `GetKeysValues` and `GetAll` of the text
-/

namespace Jin.Go

/-- A slice of strings that begins as nil. -/
def nilStrs : List Bytes → Val
  | [] => .nil
  | a :: l => .strs (a :: l)

theorem nilStrs_nil : nilStrs [] = .nil := rfl

@[go_run] theorem append_nilStrs (l : List Bytes) (x : Bytes) : Val.append (nilStrs l) (.bytes x) = .ok (nilStrs (l ++ [x])) := by
  cases l <;> rfl

/-- What `GetKeysValues` returns. -/
def pairRes : Out (List Bytes × List Bytes) → Res Unit
  | .ok (a, b) => .ret () [nilStrs a, nilStrs b, .nil]
  | .err e => .ret () [.nil, .nil, .err e]
  | .panic => .panic

def pairVals : Out (List Bytes × List Bytes) → R (List Val)
  | .ok (a, b) => .ok [nilStrs a, nilStrs b, .nil]
  | .err e => .ok [.nil, .nil, .err e]
  | .panic => .panic

theorem pair_body {f : Func} {Γ : Ctx Unit} {fuel : Nat} {sp : Bool} {args : List Val} {env : Env} {m : Out (List Bytes × List Bytes)}
    (h1 : bindParams f.variadic sp f.params args = .ok env) (h2 : exec Γ fuel f.body ⟨(), env⟩ = pairRes m) :
    ((f.run Γ fuel sp args ()).bind fun r => .ok r.2) = pairVals m := by
  rw [Func.run, h1]
  simp only [R.bind, h2]
  rcases m with ⟨a, b⟩ | _ | _ <;> rfl

theorem tbl_seven : ([34, 44, 58, 91, 93, 123, 125] : Bytes).foldl (fun tb c => tb.set c.toNat true) (List.replicate 256 false) = tbl true true := by
  decide +kernel

section
variable {fl : FloatLib UInt64} {fuel d : Nat} {sp : Bool} {json : Bytes} {path keys : List Bytes}

/-! ### GetKeys -/

theorem GetKeys_for1 (hf : json.length < fuel) (ρ : Env) :
    exec (ctx fl fuel (d + 1)) fuel Src.GetKeys.for1 ⟨(), (go% err, .nil) :: (go% start, .int 0) :: (go% keys, .nil) :: (0, .nil) :: (go% json, .bytes json) :: ρ⟩ =
    match skipSpaces json 0 with
    | some j => .norm ⟨(), (go% err, .nil) :: (go% start, .int j) :: (go% keys, .nil) :: (0, .nil) :: (go% json, .bytes json) :: ρ⟩
    | none => .panic := by
  run_go [Src.GetKeys.for1]
  refine (loop_skip (json := json) (fun j => ⟨(), (go% err, .nil) :: (go% start, .int j) :: (go% keys, .nil) :: (0, .nil) :: (go% json, .bytes json) :: ρ⟩)
    ?_ ?_ ?_ fuel 0 (by omega)).trans ?_
  · intro i
    cases h : json[i]? <;> run_go [h]
  · intro i hi
    have h : ¬ ((json.length : Int) - 1 < i) := by omega
    run_go [Src.GetKeys.body1, h]
    rfl
  · intro i; run_go []
  · rfl

theorem GetKeys_for2 (ρ : Env) :
    exec (ctx fl fuel d) fuel Src.GetKeys.for2 ⟨(), (go% isJSONChar, .bools (List.replicate 256 false)) ::
      (go% chars, .bytes [34, 44, 58, 91, 93, 123, 125]) :: ρ⟩ =
    .norm ⟨(), (go% isJSONChar, .bools (tbl true true)) :: (go% chars, .bytes [34, 44, 58, 91, 93, 123, 125]) :: ρ⟩ := by
  run_go [Src.GetKeys.for2]
  refine (range_tbl ?_ [34, 44, 58, 91, 93, 123, 125] _ _ rfl List.length_replicate).trans ?_
  · intro tb c h
    run_go [Src.GetKeys.body2, put_nat tb c.toNat true (by rw [h]; exact c.toNat_lt)]
  · rw [tbl_seven]

/-- The variables in the loop of `GetKeys`. -/
abbrev GetKeys.env (json : Bytes) (s : KvSt) (ρ : Env) : Env :=
  (go% level, .int s.level) :: (go% inQuote, .bool s.inQuote) :: (go% keyEnd, .int s.keyEnd) :: (go% keyStart, .int s.keyStart) :: (0, .nil) :: (go% isJSONChar, .bools (tbl true true)) ::
    (go% chars, .bytes [34, 44, 58, 91, 93, 123, 125]) :: (go% err, .nil) :: (go% start, .int s.start) :: (go% keys, nilStrs s.keys) :: (0, .nil) :: (go% json, .bytes json) :: ρ

theorem GetKeys_for4 (hf : json.length < fuel) {i : Nat} (hi : i ≤ json.length) (c : UInt8) (s : KvSt) (ρ : Env) :
    exec (ctx fl fuel d) fuel Src.GetKeys.for4
      ⟨(), (go% curr, .byte c) :: (0, .nil) :: (go% i, .int i) :: (0, .nil) :: GetKeys.env json s ρ⟩ =
    match quoteScan json i i with
    | .real => .norm ⟨(), (go% curr, .byte c) :: (0, .nil) :: (go% i, .int i) :: (0, .nil) :: GetKeys.env json { s with inQuote := !s.inQuote } ρ⟩
    | .escaped => .jump (go% cont) ⟨(), (go% curr, .byte c) :: (0, .nil) :: (go% i, .int i) :: (0, .nil) :: GetKeys.env json s ρ⟩
    | .off => .norm ⟨(), (go% curr, .byte c) :: (0, .nil) :: (go% i, .int i) :: (0, .nil) :: GetKeys.env json s ρ⟩ := by
  run_go [Src.GetKeys.for4]
  refine (loop_quote (json := json) (i := i) (fun n => ⟨(), (go% n, .int n) :: (0, .nil) :: (go% curr, .byte c) :: (0, .nil) ::
      (go% i, .int i) :: (0, .nil) :: GetKeys.env json s ρ⟩)
      (.norm ⟨(), (go% curr, .byte c) :: (0, .nil) :: (go% i, .int i) :: (0, .nil) :: GetKeys.env json { s with inQuote := !s.inQuote } ρ⟩)
      (.jump (go% cont) ⟨(), (go% curr, .byte c) :: (0, .nil) :: (go% i, .int i) :: (0, .nil) :: GetKeys.env json s ρ⟩)
      (.norm ⟨(), (go% curr, .byte c) :: (0, .nil) :: (go% i, .int i) :: (0, .nil) :: GetKeys.env json s ρ⟩)
      ?_ ?_ ?_ ?_ hi fuel i (Nat.le_refl i) (by omega)).trans ?_
  · intro n; run_go []
  · intro n; run_go []
  · intro n; rfl
  · intro n ch hn hc
    cases h1 : ch == 92 <;> cases h2 : (i - n) % 2 == 0 <;> run_go [Src.GetKeys.body4, hc, h1, mod_sub hn, h2]
  · cases quoteScan json i i <;> rfl

theorem GetKeys_for3 (hf : json.length < fuel) (s : KvSt) (ρ : Env) :
    exec (ctx fl fuel (d + 2)) fuel Src.GetKeys.for3 ⟨(), GetKeys.env json s ρ⟩ =
    after (fun s : KvSt => ⟨(), GetKeys.env json s ρ⟩) (fun _ => .panic) (forUp json.length (keysBody json) s.start s) := by
  run_go [Src.GetKeys.for3]
  refine (loop_forUp (hi := json.length) (b := keysBody json) (fun i (s : KvSt) => ⟨(), (go% i, .int i) :: (0, .nil) :: GetKeys.env json s ρ⟩) (fun _ => .panic)
      (fun _ _ => True) (fun _ => True) ?_ ?_ (fun _ => rfl) (fun _ _ _ => trivial) ?_ fuel s.start s trivial (by omega)).leave _ ?_ (fun _ => rfl)
  · intro i s; run_go []
  · intro i s; run_go []; rfl
  · intro i s hi _
    obtain ⟨c, hc⟩ := getElem?_of_lt hi
    have e := GetKeys_for4 (fl := fl) (d := d + 2) hf (Nat.le_of_lt hi) c s ρ
    obtain ⟨st, ks, ke, q, lv, kk, vv⟩ := s
    cases h1 : isJSONChar true true c
    · run_go [keysBody, Src.GetKeys.body3, hc, h1, Sim]
    cases h2 : c == 34
    rotate_left
    · cases q
      · run_go [keysBody, Src.GetKeys.body3, hc, h1, h2, kvQuote, Sim]
      · cases h3 : quoteScan json i i <;> rw [h3] at e <;> run_go [keysBody, Src.GetKeys.body3, hc, h1, h2, h3, kvQuote, e, Sim]
    cases q
    rotate_left
    · run_go [keysBody, Src.GetKeys.body3, hc, h1, h2, Sim]
    rcases indByte c with h | h | h | h | h | h | h <;> obtain ⟨h3, h4, h5, h6, h7, h8⟩ := h
    · run_go [keysBody, Src.GetKeys.body3, hc, h1, h2, h3, h4, h5, h6, h7, h8, Sim]
    · cases h9 : lv == 1
      · run_go [keysBody, Src.GetKeys.body3, hc, h1, h2, h3, h4, h5, h6, h7, h8, h9, Sim]
      · run_go [keysBody, Src.GetKeys.body3, hc, h1, h2, h3, h4, h5, h6, h7, h8, h9, Sim]
    · run_go [keysBody, Src.GetKeys.body3, hc, h1, h2, h3, h4, h5, h6, h7, h8, Sim]
    · cases h9 : lv == 1
      · run_go [keysBody, Src.GetKeys.body3, hc, h1, h2, h3, h4, h5, h6, h7, h8, h9, Sim]
      · run_go [keysBody, Src.GetKeys.body3, hc, h1, h2, h3, h4, h5, h6, h7, h8, h9, Sim]
    · cases h9 : lv == 1
      · run_go [keysBody, Src.GetKeys.body3, hc, h1, h2, h3, h4, h5, h6, h7, h8, h9, Sim]
      · run_go [keysBody, Src.GetKeys.body3, hc, h1, h2, h3, h4, h5, h6, h7, h8, h9, Sim]
    · cases h9 : lv == 1
      · run_go [keysBody, Src.GetKeys.body3, hc, h1, h2, h3, h4, h5, h6, h7, h8, h9, Sim]
      · rcases slice_cases json ((ks : Int) + 1) ke with ⟨b, h10⟩ | h10 <;>
          run_go [keysBody, Src.GetKeys.body3, hc, h1, h2, h3, h4, h5, h6, h7, h8, h9, h10, Sim, Int.natCast_succ]
    · run_go [keysBody, Src.GetKeys.body3, hc, h1, h2, h3, h4, h5, h6, h7, h8, Sim]
  · intro i s; rfl

theorem run_GetKeys (hf : need json path < fuel) :
    (jin fl).fn fuel (d + 4) (go% GetKeys) true [.bytes json, .strs path] = oneVal nilStrs .nil (GetKeys json path) := by
  rw [fn_run (g := Src.GetKeys) rfl]
  refine one_body rfl ?_
  have hf' : json.length < fuel := by unfold need at hf; omega
  have ho : bObj = [123, 125] := rfl
  cases h1 : json == [123, 125]
  rotate_left
  · run_go [Src.GetKeys, GetKeys, kvRun, ho, h1, Out.map, oneRes]
  have e3 := fun start => GetKeys_for3 (fl := fl) (d := d + 1) hf' ⟨start, 0, 0, false, 0, [], []⟩ [(go% path, .strs path)]
  simp only [GetKeys.env, Int.natCast_zero, nilStrs_nil] at e3
  cases hp : path.length == 0
  · cases h : core json true path with
    | err e => run_go [Src.GetKeys, GetKeys, kvRun, ho, h1, hp, valueStart, run_core hf, h, locVals, Out.map, oneRes]
    | panic => run_go [Src.GetKeys, GetKeys, kvRun, ho, h1, hp, valueStart, run_core hf, h, locVals, Out.map, oneRes]
    | ok l =>
      cases h2 : json[l.start]? with
      | none => run_go [Src.GetKeys, GetKeys, kvRun, ho, h1, hp, valueStart, run_core hf, h, locVals, Out.map, oneRes, GetKeys_for2, idx_nat, h2, outOpt]
      | some c =>
        cases h3 : c == 123
        · run_go [Src.GetKeys, GetKeys, kvRun, ho, h1, hp, valueStart, run_core hf, h, locVals, Out.map, oneRes, GetKeys_for2, idx_nat, h2, h3, outOpt]
        have e3 := e3 l.start
        cases h4 : forUp json.length (keysBody json) l.start ⟨l.start, 0, 0, false, 0, [], []⟩ <;> rw [h4] at e3 <;>
          run_go [Src.GetKeys, GetKeys, kvRun, ho, h1, hp, valueStart, run_core hf, h, locVals, Out.map, oneRes, GetKeys_for2, idx_nat, h2, h3, outOpt, e3, after, h4]
  · have e1 := GetKeys_for1 (fl := fl) (d := d + 2) hf' [(go% path, .strs path)]
    cases h2 : skipSpaces json 0 with
    | none => rw [h2] at e1; run_go [Src.GetKeys, GetKeys, kvRun, ho, h1, hp, valueStart, e1, h2, Out.map, oneRes]
    | some a =>
      rw [h2] at e1
      obtain ⟨c, hc, -⟩ := skipSpaces_some h2
      cases h3 : c == 123
      · run_go [Src.GetKeys, GetKeys, kvRun, ho, h1, hp, valueStart, e1, h2, Out.map, oneRes, GetKeys_for2, idx_nat, hc, h3, outOpt]
      have e3 := e3 a
      cases h4 : forUp json.length (keysBody json) a ⟨a, 0, 0, false, 0, [], []⟩ <;> rw [h4] at e3 <;>
        run_go [Src.GetKeys, GetKeys, kvRun, ho, h1, hp, valueStart, e1, h2, Out.map, oneRes, GetKeys_for2, idx_nat, hc, h3, outOpt, e3, after, h4]

/-! ### GetValues -/

theorem GetValues_for1 (hf : json.length < fuel) (ρ : Env) :
    exec (ctx fl fuel (d + 1)) fuel Src.GetValues.for1 ⟨(), (go% err, .nil) :: (go% start, .int 0) :: (go% values, .nil) :: (0, .nil) :: (go% json, .bytes json) :: ρ⟩ =
    match skipSpaces json 0 with
    | some j => .norm ⟨(), (go% err, .nil) :: (go% start, .int j) :: (go% values, .nil) :: (0, .nil) :: (go% json, .bytes json) :: ρ⟩
    | none => .panic := by
  run_go [Src.GetValues.for1]
  refine (loop_skip (json := json) (fun j => ⟨(), (go% err, .nil) :: (go% start, .int j) :: (go% values, .nil) :: (0, .nil) :: (go% json, .bytes json) :: ρ⟩)
    ?_ ?_ ?_ fuel 0 (by omega)).trans ?_
  · intro i
    cases h : json[i]? <;> run_go [h]
  · intro i hi
    have h : ¬ ((json.length : Int) - 1 < i) := by omega
    run_go [Src.GetValues.body1, h]
    rfl
  · intro i; run_go []
  · rfl

theorem GetValues_for2 (ρ : Env) :
    exec (ctx fl fuel d) fuel Src.GetValues.for2 ⟨(), (go% isJSONChar, .bools (List.replicate 256 false)) ::
      (go% chars, .bytes [34, 44, 58, 91, 93, 123, 125]) :: ρ⟩ =
    .norm ⟨(), (go% isJSONChar, .bools (tbl true true)) :: (go% chars, .bytes [34, 44, 58, 91, 93, 123, 125]) :: ρ⟩ := by
  run_go [Src.GetValues.for2]
  refine (range_tbl ?_ [34, 44, 58, 91, 93, 123, 125] _ _ rfl List.length_replicate).trans ?_
  · intro tb c h
    run_go [Src.GetValues.body2, put_nat tb c.toNat true (by rw [h]; exact c.toNat_lt)]
  · rw [tbl_seven]

/-- The variables in the loop of `GetValues`. -/
abbrev GetValues.env (json : Bytes) (s : KvSt) (ρ : Env) : Env :=
  (go% level, .int s.level) :: (go% inQuote, .bool s.inQuote) :: (0, .nil) :: (go% isJSONChar, .bools (tbl true true)) ::
    (go% chars, .bytes [34, 44, 58, 91, 93, 123, 125]) :: (go% err, .nil) :: (go% start, .int s.start) :: (go% values, nilStrs s.values) :: (0, .nil) :: (go% json, .bytes json) :: ρ

theorem GetValues_for4 (hf : json.length < fuel) {i : Nat} (hi : i ≤ json.length) (c : UInt8) (s : KvSt) (ρ : Env) :
    exec (ctx fl fuel d) fuel Src.GetValues.for4
      ⟨(), (go% curr, .byte c) :: (0, .nil) :: (go% i, .int i) :: (0, .nil) :: GetValues.env json s ρ⟩ =
    match quoteScan json i i with
    | .real => .norm ⟨(), (go% curr, .byte c) :: (0, .nil) :: (go% i, .int i) :: (0, .nil) :: GetValues.env json { s with inQuote := !s.inQuote } ρ⟩
    | .escaped => .jump (go% cont) ⟨(), (go% curr, .byte c) :: (0, .nil) :: (go% i, .int i) :: (0, .nil) :: GetValues.env json s ρ⟩
    | .off => .norm ⟨(), (go% curr, .byte c) :: (0, .nil) :: (go% i, .int i) :: (0, .nil) :: GetValues.env json s ρ⟩ := by
  run_go [Src.GetValues.for4]
  refine (loop_quote (json := json) (i := i) (fun n => ⟨(), (go% n, .int n) :: (0, .nil) :: (go% curr, .byte c) :: (0, .nil) ::
      (go% i, .int i) :: (0, .nil) :: GetValues.env json s ρ⟩)
      (.norm ⟨(), (go% curr, .byte c) :: (0, .nil) :: (go% i, .int i) :: (0, .nil) :: GetValues.env json { s with inQuote := !s.inQuote } ρ⟩)
      (.jump (go% cont) ⟨(), (go% curr, .byte c) :: (0, .nil) :: (go% i, .int i) :: (0, .nil) :: GetValues.env json s ρ⟩)
      (.norm ⟨(), (go% curr, .byte c) :: (0, .nil) :: (go% i, .int i) :: (0, .nil) :: GetValues.env json s ρ⟩)
      ?_ ?_ ?_ ?_ hi fuel i (Nat.le_refl i) (by omega)).trans ?_
  · intro n; run_go []
  · intro n; run_go []
  · intro n; rfl
  · intro n ch hn hc
    cases h1 : ch == 92 <;> cases h2 : (i - n) % 2 == 0 <;> run_go [Src.GetValues.body4, hc, h1, mod_sub hn, h2]
  · cases quoteScan json i i <;> rfl

theorem GetValues_for3 (hf : json.length < fuel) (s : KvSt) (ρ : Env) :
    exec (ctx fl fuel (d + 2)) fuel Src.GetValues.for3 ⟨(), GetValues.env json s ρ⟩ =
    after (fun s : KvSt => ⟨(), GetValues.env json s ρ⟩) (fun _ => .panic) (forUp json.length (valuesBody json) s.start s) := by
  run_go [Src.GetValues.for3]
  refine (loop_forUp (hi := json.length) (b := valuesBody json) (fun i (s : KvSt) => ⟨(), (go% i, .int i) :: (0, .nil) :: GetValues.env json s ρ⟩) (fun _ => .panic)
      (fun _ _ => True) (fun _ => True) ?_ ?_ (fun _ => rfl) (fun _ _ _ => trivial) ?_ fuel s.start s trivial (by omega)).leave _ ?_ (fun _ => rfl)
  · intro i s; run_go []
  · intro i s; run_go []; rfl
  · intro i s hi _
    obtain ⟨c, hc⟩ := getElem?_of_lt hi
    have e := GetValues_for4 (fl := fl) (d := d + 2) hf (Nat.le_of_lt hi) c s ρ
    obtain ⟨st, ks, ke, q, lv, kk, vv⟩ := s
    cases h1 : isJSONChar true true c
    · run_go [valuesBody, Src.GetValues.body3, hc, h1, Sim]
    cases h2 : c == 34
    rotate_left
    · cases q
      · run_go [valuesBody, Src.GetValues.body3, hc, h1, h2, kvQuote, Sim]
      · cases h3 : quoteScan json i i <;> rw [h3] at e <;> run_go [valuesBody, Src.GetValues.body3, hc, h1, h2, h3, kvQuote, e, Sim]
    cases q
    rotate_left
    · run_go [valuesBody, Src.GetValues.body3, hc, h1, h2, Sim]
    rcases indByte c with h | h | h | h | h | h | h <;> obtain ⟨h3, h4, h5, h6, h7, h8⟩ := h
    · run_go [valuesBody, Src.GetValues.body3, hc, h1, h2, h3, h4, h5, h6, h7, h8, Sim]
    · cases h9 : lv == 1
      · run_go [valuesBody, Src.GetValues.body3, hc, h1, h2, h3, h4, h5, h6, h7, h8, h9, Sim]
      · rcases slice_cases json st i with ⟨b, h10⟩ | h10
        rotate_left
        · run_go [valuesBody, Src.GetValues.body3, hc, h1, h2, h3, h4, h5, h6, h7, h8, h9, h10, Sim]
        have hb : b.length < fuel := Nat.lt_of_le_of_lt (slice_length h10) hf
        rcases clean_cases b with ⟨v, h11⟩ | h11 <;>
          run_go [valuesBody, Src.GetValues.body3, hc, h1, h2, h3, h4, h5, h6, h7, h8, h9, h10, run_cleanValueString b hb, h11, Sim, Int.natCast_succ]
    · run_go [valuesBody, Src.GetValues.body3, hc, h1, h2, h3, h4, h5, h6, h7, h8, Sim]
    · cases h9 : lv == 1
      · run_go [valuesBody, Src.GetValues.body3, hc, h1, h2, h3, h4, h5, h6, h7, h8, h9, Sim]
      · rcases slice_cases json st i with ⟨b, h10⟩ | h10
        rotate_left
        · run_go [valuesBody, Src.GetValues.body3, hc, h1, h2, h3, h4, h5, h6, h7, h8, h9, h10, Sim]
        have hb : b.length < fuel := Nat.lt_of_le_of_lt (slice_length h10) hf
        rcases clean_cases b with ⟨v, h11⟩ | h11 <;>
          run_go [valuesBody, Src.GetValues.body3, hc, h1, h2, h3, h4, h5, h6, h7, h8, h9, h10, run_cleanValueString b hb, h11, Sim, Int.natCast_succ]
    · cases h9 : lv == 1
      · run_go [valuesBody, Src.GetValues.body3, hc, h1, h2, h3, h4, h5, h6, h7, h8, h9, Sim]
      · rcases slice_cases json st i with ⟨b, h10⟩ | h10
        rotate_left
        · run_go [valuesBody, Src.GetValues.body3, hc, h1, h2, h3, h4, h5, h6, h7, h8, h9, h10, Sim]
        have hb : b.length < fuel := Nat.lt_of_le_of_lt (slice_length h10) hf
        rcases clean_cases b with ⟨v, h11⟩ | h11 <;>
          run_go [valuesBody, Src.GetValues.body3, hc, h1, h2, h3, h4, h5, h6, h7, h8, h9, h10, run_cleanValueString b hb, h11, Sim, Int.natCast_succ] <;> rfl
    · cases h9 : lv == 1
      · run_go [valuesBody, Src.GetValues.body3, hc, h1, h2, h3, h4, h5, h6, h7, h8, h9, Sim]
      · run_go [valuesBody, Src.GetValues.body3, hc, h1, h2, h3, h4, h5, h6, h7, h8, h9, Sim, Int.natCast_succ] <;> rfl
    · run_go [valuesBody, Src.GetValues.body3, hc, h1, h2, h3, h4, h5, h6, h7, h8, Sim]
  · intro i s; rfl

theorem run_GetValues (hf : need json path < fuel) :
    (jin fl).fn fuel (d + 4) (go% GetValues) true [.bytes json, .strs path] = oneVal nilStrs .nil (GetValues json path) := by
  rw [fn_run (g := Src.GetValues) rfl]
  refine one_body rfl ?_
  have hf' : json.length < fuel := by unfold need at hf; omega
  have ho : bObj = [123, 125] := rfl
  cases h1 : json == [123, 125]
  rotate_left
  · run_go [Src.GetValues, GetValues, kvRun, ho, h1, Out.map, oneRes]
  have e3 := fun start => GetValues_for3 (fl := fl) (d := d + 1) hf' ⟨start, 0, 0, false, 0, [], []⟩ [(go% path, .strs path)]
  simp only [GetValues.env, nilStrs_nil] at e3
  cases hp : path.length == 0
  · cases h : core json true path with
    | err e => run_go [Src.GetValues, GetValues, kvRun, ho, h1, hp, valueStart, run_core hf, h, locVals, Out.map, oneRes]
    | panic => run_go [Src.GetValues, GetValues, kvRun, ho, h1, hp, valueStart, run_core hf, h, locVals, Out.map, oneRes]
    | ok l =>
      cases h2 : json[l.start]? with
      | none => run_go [Src.GetValues, GetValues, kvRun, ho, h1, hp, valueStart, run_core hf, h, locVals, Out.map, oneRes, GetValues_for2, idx_nat, h2, outOpt]
      | some c =>
        cases h3 : c == 123
        · run_go [Src.GetValues, GetValues, kvRun, ho, h1, hp, valueStart, run_core hf, h, locVals, Out.map, oneRes, GetValues_for2, idx_nat, h2, h3, outOpt]
        have e3 := e3 l.start
        cases h4 : forUp json.length (valuesBody json) l.start ⟨l.start, 0, 0, false, 0, [], []⟩ <;> rw [h4] at e3 <;>
          run_go [Src.GetValues, GetValues, kvRun, ho, h1, hp, valueStart, run_core hf, h, locVals, Out.map, oneRes, GetValues_for2, idx_nat, h2, h3, outOpt, e3, after, h4]
  · have e1 := GetValues_for1 (fl := fl) (d := d + 2) hf' [(go% path, .strs path)]
    cases h2 : skipSpaces json 0 with
    | none => rw [h2] at e1; run_go [Src.GetValues, GetValues, kvRun, ho, h1, hp, valueStart, e1, h2, Out.map, oneRes]
    | some a =>
      rw [h2] at e1
      obtain ⟨c, hc, -⟩ := skipSpaces_some h2
      cases h3 : c == 123
      · run_go [Src.GetValues, GetValues, kvRun, ho, h1, hp, valueStart, e1, h2, Out.map, oneRes, GetValues_for2, idx_nat, hc, h3, outOpt]
      have e3 := e3 a
      cases h4 : forUp json.length (valuesBody json) a ⟨a, 0, 0, false, 0, [], []⟩ <;> rw [h4] at e3 <;>
        run_go [Src.GetValues, GetValues, kvRun, ho, h1, hp, valueStart, e1, h2, Out.map, oneRes, GetValues_for2, idx_nat, hc, h3, outOpt, e3, after, h4]

/-! ### GetKeysValues -/

theorem GetKeysValues_for1 (hf : json.length < fuel) (ρ : Env) :
    exec (ctx fl fuel (d + 1)) fuel Src.GetKeysValues.for1 ⟨(), (go% err, .nil) :: (go% start, .int 0) :: (go% keys, .nil) :: (go% values, .nil) :: (0, .nil) :: (go% json, .bytes json) :: ρ⟩ =
    match skipSpaces json 0 with
    | some j => .norm ⟨(), (go% err, .nil) :: (go% start, .int j) :: (go% keys, .nil) :: (go% values, .nil) :: (0, .nil) :: (go% json, .bytes json) :: ρ⟩
    | none => .panic := by
  run_go [Src.GetKeysValues.for1]
  refine (loop_skip (json := json) (fun j => ⟨(), (go% err, .nil) :: (go% start, .int j) :: (go% keys, .nil) :: (go% values, .nil) :: (0, .nil) :: (go% json, .bytes json) :: ρ⟩)
    ?_ ?_ ?_ fuel 0 (by omega)).trans ?_
  · intro i
    cases h : json[i]? <;> run_go [h]
  · intro i hi
    have h : ¬ ((json.length : Int) - 1 < i) := by omega
    run_go [Src.GetKeysValues.body1, h]
    rfl
  · intro i; run_go []
  · rfl

theorem GetKeysValues_for2 (ρ : Env) :
    exec (ctx fl fuel d) fuel Src.GetKeysValues.for2 ⟨(), (go% isJSONChar, .bools (List.replicate 256 false)) ::
      (go% chars, .bytes [34, 44, 58, 91, 93, 123, 125]) :: ρ⟩ =
    .norm ⟨(), (go% isJSONChar, .bools (tbl true true)) :: (go% chars, .bytes [34, 44, 58, 91, 93, 123, 125]) :: ρ⟩ := by
  run_go [Src.GetKeysValues.for2]
  refine (range_tbl ?_ [34, 44, 58, 91, 93, 123, 125] _ _ rfl List.length_replicate).trans ?_
  · intro tb c h
    run_go [Src.GetKeysValues.body2, put_nat tb c.toNat true (by rw [h]; exact c.toNat_lt)]
  · rw [tbl_seven]

/-- The variables in the loop of `GetKeysValues`. -/
abbrev GetKeysValues.env (json : Bytes) (s : KvSt) (ρ : Env) : Env :=
  (go% level, .int s.level) :: (go% inQuote, .bool s.inQuote) :: (go% keyEnd, .int s.keyEnd) :: (go% keyStart, .int s.keyStart) :: (0, .nil) :: (go% isJSONChar, .bools (tbl true true)) ::
    (go% chars, .bytes [34, 44, 58, 91, 93, 123, 125]) :: (go% err, .nil) :: (go% start, .int s.start) :: (go% keys, nilStrs s.keys) :: (go% values, nilStrs s.values) :: (0, .nil) :: (go% json, .bytes json) :: ρ

theorem GetKeysValues_for4 (hf : json.length < fuel) {i : Nat} (hi : i ≤ json.length) (c : UInt8) (s : KvSt) (ρ : Env) :
    exec (ctx fl fuel d) fuel Src.GetKeysValues.for4
      ⟨(), (go% curr, .byte c) :: (0, .nil) :: (go% i, .int i) :: (0, .nil) :: GetKeysValues.env json s ρ⟩ =
    match quoteScan json i i with
    | .real => .norm ⟨(), (go% curr, .byte c) :: (0, .nil) :: (go% i, .int i) :: (0, .nil) :: GetKeysValues.env json { s with inQuote := !s.inQuote } ρ⟩
    | .escaped => .jump (go% cont) ⟨(), (go% curr, .byte c) :: (0, .nil) :: (go% i, .int i) :: (0, .nil) :: GetKeysValues.env json s ρ⟩
    | .off => .norm ⟨(), (go% curr, .byte c) :: (0, .nil) :: (go% i, .int i) :: (0, .nil) :: GetKeysValues.env json s ρ⟩ := by
  run_go [Src.GetKeysValues.for4]
  refine (loop_quote (json := json) (i := i) (fun n => ⟨(), (go% n, .int n) :: (0, .nil) :: (go% curr, .byte c) :: (0, .nil) ::
      (go% i, .int i) :: (0, .nil) :: GetKeysValues.env json s ρ⟩)
      (.norm ⟨(), (go% curr, .byte c) :: (0, .nil) :: (go% i, .int i) :: (0, .nil) :: GetKeysValues.env json { s with inQuote := !s.inQuote } ρ⟩)
      (.jump (go% cont) ⟨(), (go% curr, .byte c) :: (0, .nil) :: (go% i, .int i) :: (0, .nil) :: GetKeysValues.env json s ρ⟩)
      (.norm ⟨(), (go% curr, .byte c) :: (0, .nil) :: (go% i, .int i) :: (0, .nil) :: GetKeysValues.env json s ρ⟩)
      ?_ ?_ ?_ ?_ hi fuel i (Nat.le_refl i) (by omega)).trans ?_
  · intro n; run_go []
  · intro n; run_go []
  · intro n; rfl
  · intro n ch hn hc
    cases h1 : ch == 92 <;> cases h2 : (i - n) % 2 == 0 <;> run_go [Src.GetKeysValues.body4, hc, h1, mod_sub hn, h2]
  · cases quoteScan json i i <;> rfl

theorem GetKeysValues_for3 (hf : json.length < fuel) (s : KvSt) (ρ : Env) :
    exec (ctx fl fuel (d + 2)) fuel Src.GetKeysValues.for3 ⟨(), GetKeysValues.env json s ρ⟩ =
    after (fun s : KvSt => ⟨(), GetKeysValues.env json s ρ⟩) (fun _ => .panic) (forUp json.length (keysValuesBody json) s.start s) := by
  run_go [Src.GetKeysValues.for3]
  refine (loop_forUp (hi := json.length) (b := keysValuesBody json) (fun i (s : KvSt) => ⟨(), (go% i, .int i) :: (0, .nil) :: GetKeysValues.env json s ρ⟩) (fun _ => .panic)
      (fun _ _ => True) (fun _ => True) ?_ ?_ (fun _ => rfl) (fun _ _ _ => trivial) ?_ fuel s.start s trivial (by omega)).leave _ ?_ (fun _ => rfl)
  · intro i s; run_go []
  · intro i s; run_go []; rfl
  · intro i s hi _
    obtain ⟨c, hc⟩ := getElem?_of_lt hi
    have e := GetKeysValues_for4 (fl := fl) (d := d + 2) hf (Nat.le_of_lt hi) c s ρ
    obtain ⟨st, ks, ke, q, lv, kk, vv⟩ := s
    cases h1 : isJSONChar true true c
    · run_go [keysValuesBody, Src.GetKeysValues.body3, hc, h1, Sim]
    cases h2 : c == 34
    rotate_left
    · cases q
      · run_go [keysValuesBody, Src.GetKeysValues.body3, hc, h1, h2, kvQuote, Sim]
      · cases h3 : quoteScan json i i <;> rw [h3] at e <;> run_go [keysValuesBody, Src.GetKeysValues.body3, hc, h1, h2, h3, kvQuote, e, Sim]
    cases q
    rotate_left
    · run_go [keysValuesBody, Src.GetKeysValues.body3, hc, h1, h2, Sim]
    rcases indByte c with h | h | h | h | h | h | h <;> obtain ⟨h3, h4, h5, h6, h7, h8⟩ := h
    · run_go [keysValuesBody, Src.GetKeysValues.body3, hc, h1, h2, h3, h4, h5, h6, h7, h8, Sim]
    · cases h9 : lv == 1
      · run_go [keysValuesBody, Src.GetKeysValues.body3, hc, h1, h2, h3, h4, h5, h6, h7, h8, h9, Sim]
      · rcases slice_cases json st i with ⟨b, h10⟩ | h10
        rotate_left
        · run_go [keysValuesBody, Src.GetKeysValues.body3, hc, h1, h2, h3, h4, h5, h6, h7, h8, h9, h10, Sim]
        have hb : b.length < fuel := Nat.lt_of_le_of_lt (slice_length h10) hf
        rcases clean_cases b with ⟨v, h11⟩ | h11 <;>
          run_go [keysValuesBody, Src.GetKeysValues.body3, hc, h1, h2, h3, h4, h5, h6, h7, h8, h9, h10, run_cleanValueString b hb, h11, Sim, Int.natCast_succ]
    · run_go [keysValuesBody, Src.GetKeysValues.body3, hc, h1, h2, h3, h4, h5, h6, h7, h8, Sim]
    · cases h9 : lv == 1
      · run_go [keysValuesBody, Src.GetKeysValues.body3, hc, h1, h2, h3, h4, h5, h6, h7, h8, h9, Sim]
      · rcases slice_cases json st i with ⟨b, h10⟩ | h10
        rotate_left
        · run_go [keysValuesBody, Src.GetKeysValues.body3, hc, h1, h2, h3, h4, h5, h6, h7, h8, h9, h10, Sim]
        have hb : b.length < fuel := Nat.lt_of_le_of_lt (slice_length h10) hf
        rcases clean_cases b with ⟨v, h11⟩ | h11 <;>
          run_go [keysValuesBody, Src.GetKeysValues.body3, hc, h1, h2, h3, h4, h5, h6, h7, h8, h9, h10, run_cleanValueString b hb, h11, Sim, Int.natCast_succ]
    · cases h9 : lv == 1
      · run_go [keysValuesBody, Src.GetKeysValues.body3, hc, h1, h2, h3, h4, h5, h6, h7, h8, h9, Sim]
      · rcases slice_cases json st i with ⟨b, h10⟩ | h10
        rotate_left
        · run_go [keysValuesBody, Src.GetKeysValues.body3, hc, h1, h2, h3, h4, h5, h6, h7, h8, h9, h10, Sim]
        have hb : b.length < fuel := Nat.lt_of_le_of_lt (slice_length h10) hf
        rcases clean_cases b with ⟨v, h11⟩ | h11 <;>
          run_go [keysValuesBody, Src.GetKeysValues.body3, hc, h1, h2, h3, h4, h5, h6, h7, h8, h9, h10, run_cleanValueString b hb, h11, Sim, Int.natCast_succ] <;> rfl
    · cases h9 : lv == 1
      · run_go [keysValuesBody, Src.GetKeysValues.body3, hc, h1, h2, h3, h4, h5, h6, h7, h8, h9, Sim]
      · rcases slice_cases json ((ks : Int) + 1) ke with ⟨b, h10⟩ | h10 <;>
          run_go [keysValuesBody, Src.GetKeysValues.body3, hc, h1, h2, h3, h4, h5, h6, h7, h8, h9, h10, Sim, Int.natCast_succ] <;> rfl
    · run_go [keysValuesBody, Src.GetKeysValues.body3, hc, h1, h2, h3, h4, h5, h6, h7, h8, Sim]
  · intro i s; rfl

theorem run_GetKeysValues (hf : need json path < fuel) :
    (jin fl).fn fuel (d + 4) (go% GetKeysValues) true [.bytes json, .strs path] = pairVals (GetKeysValues json path) := by
  rw [fn_run (g := Src.GetKeysValues) rfl]
  refine pair_body rfl ?_
  have hf' : json.length < fuel := by unfold need at hf; omega
  have ho : bObj = [123, 125] := rfl
  cases h1 : json == [123, 125]
  rotate_left
  · run_go [Src.GetKeysValues, GetKeysValues, kvRun, ho, h1, Out.map, pairRes]
  have e3 := fun start => GetKeysValues_for3 (fl := fl) (d := d + 1) hf' ⟨start, 0, 0, false, 0, [], []⟩ [(go% path, .strs path)]
  simp only [GetKeysValues.env, Int.natCast_zero, nilStrs_nil] at e3
  cases hp : path.length == 0
  · cases h : core json true path with
    | err e => run_go [Src.GetKeysValues, GetKeysValues, kvRun, ho, h1, hp, valueStart, run_core hf, h, locVals, Out.map, pairRes]
    | panic => run_go [Src.GetKeysValues, GetKeysValues, kvRun, ho, h1, hp, valueStart, run_core hf, h, locVals, Out.map, pairRes]
    | ok l =>
      cases h2 : json[l.start]? with
      | none => run_go [Src.GetKeysValues, GetKeysValues, kvRun, ho, h1, hp, valueStart, run_core hf, h, locVals, Out.map, pairRes, GetKeysValues_for2, idx_nat, h2, outOpt]
      | some c =>
        cases h3 : c == 123
        · run_go [Src.GetKeysValues, GetKeysValues, kvRun, ho, h1, hp, valueStart, run_core hf, h, locVals, Out.map, pairRes, GetKeysValues_for2, idx_nat, h2, h3, outOpt]
        have e3 := e3 l.start
        cases h4 : forUp json.length (keysValuesBody json) l.start ⟨l.start, 0, 0, false, 0, [], []⟩ <;> rw [h4] at e3 <;>
          run_go [Src.GetKeysValues, GetKeysValues, kvRun, ho, h1, hp, valueStart, run_core hf, h, locVals, Out.map, pairRes, GetKeysValues_for2, idx_nat, h2, h3, outOpt, e3, after, h4]
  · have e1 := GetKeysValues_for1 (fl := fl) (d := d + 2) hf' [(go% path, .strs path)]
    cases h2 : skipSpaces json 0 with
    | none => rw [h2] at e1; run_go [Src.GetKeysValues, GetKeysValues, kvRun, ho, h1, hp, valueStart, e1, h2, Out.map, pairRes]
    | some a =>
      rw [h2] at e1
      obtain ⟨c, hc, -⟩ := skipSpaces_some h2
      cases h3 : c == 123
      · run_go [Src.GetKeysValues, GetKeysValues, kvRun, ho, h1, hp, valueStart, e1, h2, Out.map, pairRes, GetKeysValues_for2, idx_nat, hc, h3, outOpt]
      have e3 := e3 a
      cases h4 : forUp json.length (keysValuesBody json) a ⟨a, 0, 0, false, 0, [], []⟩ <;> rw [h4] at e3 <;>
        run_go [Src.GetKeysValues, GetKeysValues, kvRun, ho, h1, hp, valueStart, e1, h2, Out.map, pairRes, GetKeysValues_for2, idx_nat, hc, h3, outOpt, e3, after, h4]

/-! ### GetAll -/

theorem all_for1 {k0 : Val} (hf : ∀ k ∈ keys, need json (path ++ [k]) < fuel) (f : Nat → Val) (rs : List Bytes) (v : Bytes) :
    (∀ vs, GetAll json keys path = .ok vs → ∃ v', rangeN 0 (go% k) (fun s => exec (ctx fl fuel (d + 4)) fuel Src.GetAll.body1 s)
      (keys.mapIdx fun i c => (f i, .bytes c)) ⟨(), [(go% results, .strs rs), (go% val, .bytes v), (go% err, .nil), (0, .nil), (go% json, .bytes json), (go% keys, k0),
        (go% path, .strs path)]⟩ = .norm ⟨(), [(go% results, .strs (rs ++ vs)), (go% val, .bytes v'), (go% err, .nil), (0, .nil), (go% json, .bytes json),
        (go% keys, k0), (go% path, .strs path)]⟩) ∧
    ((∀ vs, GetAll json keys path ≠ .ok vs) → rangeN 0 (go% k) (fun s => exec (ctx fl fuel (d + 4)) fuel Src.GetAll.body1 s)
      (keys.mapIdx fun i c => (f i, .bytes c)) ⟨(), [(go% results, .strs rs), (go% val, .bytes v), (go% err, .nil), (0, .nil), (go% json, .bytes json), (go% keys, k0),
        (go% path, .strs path)]⟩ = oneRes .strs .nil (GetAll json keys path)) := by
  induction keys generalizing f rs v with
  | nil =>
    refine ⟨fun vs h => ⟨v, ?_⟩, fun h => absurd rfl (h [])⟩
    cases h
    simp only [List.mapIdx_nil, rangeN, List.append_nil]
  | cons k keys ih =>
    have hk := hf k List.mem_cons_self
    rw [List.mapIdx_cons, rangeN]
    cases h : GetString json (path ++ [k]) with
    | ok a =>
      have e : exec (ctx fl fuel (d + 4)) fuel Src.GetAll.body1 ⟨(), [(go% k, .bytes k), (0, .nil), (go% results, .strs rs), (go% val, .bytes v), (go% err, .nil), (0, .nil), (go% json, .bytes json), (go% keys, k0),
        (go% path, .strs path)]⟩ = .norm ⟨(), [(go% k, .bytes k), (0, .nil), (go% results, .strs (rs ++ [a])), (go% val, .bytes a), (go% err, .nil), (0, .nil), (go% json, .bytes json), (go% keys, k0),
        (go% path, .strs path)]⟩ := by
        run_go [Src.GetAll.body1, run_GetString hk, h, oneVal]
      obtain ⟨h1, h2⟩ := ih (fun k' hm => hf k' (List.mem_cons_of_mem _ hm)) (fun i => f (i + 1)) (rs ++ [a]) a
      run_go [Env.new, e, GetAll, h]
      cases h3 : GetAll json keys path with
      | ok vs =>
        refine ⟨fun vs' h4 => ?_, fun h4 => absurd rfl (h4 _)⟩
        cases h4
        obtain ⟨v', h5⟩ := h1 vs h3
        exact ⟨v', by rw [h5, List.append_assoc]; rfl⟩
      | err e => exact ⟨fun vs h4 => (by cases h4), fun _ => by rw [h2 (by rw [h3]; simp), h3]; rfl⟩
      | panic => exact ⟨fun vs h4 => (by cases h4), fun _ => by rw [h2 (by rw [h3]; simp), h3]; rfl⟩
    | err e =>
      have e : exec (ctx fl fuel (d + 4)) fuel Src.GetAll.body1 ⟨(), [(go% k, .bytes k), (0, .nil), (go% results, .strs rs), (go% val, .bytes v), (go% err, .nil), (0, .nil), (go% json, .bytes json), (go% keys, k0),
        (go% path, .strs path)]⟩ = .ret () [.nil, .err e] := by
        run_go [Src.GetAll.body1, run_GetString hk, h, oneVal]
      run_go [Env.new, e, GetAll, h]
      exact ⟨fun vs h4 => (by cases h4), fun _ => rfl⟩
    | panic =>
      have e : exec (ctx fl fuel (d + 4)) fuel Src.GetAll.body1 ⟨(), [(go% k, .bytes k), (0, .nil), (go% results, .strs rs), (go% val, .bytes v), (go% err, .nil), (0, .nil), (go% json, .bytes json), (go% keys, k0),
        (go% path, .strs path)]⟩ = .panic := by
        run_go [Src.GetAll.body1, run_GetString hk, h, oneVal]
      run_go [Env.new, e, GetAll, h]
      exact ⟨fun vs h4 => (by cases h4), fun _ => rfl⟩

theorem run_GetAll (hf : ∀ k ∈ keys, need json (path ++ [k]) < fuel) :
    (jin fl).fn fuel (d + 5) (go% GetAll) true [.bytes json, .strs keys, .strs path] = oneVal .strs .nil (GetAll json keys path) := by
  rw [fn_run (g := Src.GetAll) rfl]
  refine one_body rfl ?_
  obtain ⟨h1, h2⟩ := all_for1 (fl := fl) (d := d) (k0 := .strs keys) hf (fun i => .int i) [] []
  simp only [List.nil_append] at h1 h2
  have hn : ¬ ((keys.length : Int) < 0) := by omega
  cases h : GetAll json keys path with
  | ok vs =>
    obtain ⟨v', e⟩ := h1 vs h
    run_go [Src.GetAll, Src.GetAll.for1, hn, e, oneRes]
  | err e =>
    have e := h2 (by rw [h]; simp)
    run_go [Src.GetAll, Src.GetAll.for1, hn, e, oneRes, h]
  | panic =>
    have e := h2 (by rw [h]; simp)
    run_go [Src.GetAll, Src.GetAll.for1, hn, e, oneRes, h]

end

end Jin.Go
