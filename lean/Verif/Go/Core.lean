import Verif.Go.Run
/-!
# Go.Core — `core` of the text is `core` of the model
-/

namespace Jin.Go

section
variable (fl : FloatLib UInt64) (fuel d : Nat) (sp : Bool)

@[go_run] theorem ctx_fn : (ctx fl fuel d).fn = (jin fl).fn fuel d := rfl

attribute [go_run] run_space

@[go_run] theorem run_atoi (b : Bytes) :
    (jin fl).fn fuel (d + 1) (go% strconv.Atoi) sp [.bytes b] = orErr ((atoi b).map .int) (.int (atoiBad b)) := fn_lib rfl ..
@[go_run] theorem run_errBadJSON (n : Int) :
    (jin fl).fn fuel (d + 1) (go% errBadJSON) sp [.int n] = .ok [.err (.badJSON n)] := rfl
@[go_run] theorem run_errIndexExpected :
    (jin fl).fn fuel (d + 1) (go% errIndexExpected) sp [] = .ok [.err .indexExpected] := rfl
@[go_run] theorem run_errIndexOutOfRange :
    (jin fl).fn fuel (d + 1) (go% errIndexOutOfRange) sp [] = .ok [.err .indexOutOfRange] := rfl
@[go_run] theorem run_errEmptyArray :
    (jin fl).fn fuel (d + 1) (go% errEmptyArray) sp [] = .ok [.err .emptyArray] := rfl
@[go_run] theorem run_errKeyNotFound (b : Bytes) :
    (jin fl).fn fuel (d + 1) (go% errKeyNotFound) sp [.bytes b] = .ok [.err (.keyNotFound b)] := rfl

end

/-! ### The table of characters -/

/-- `isJSONChar` of the text. -/
def tbl (comma colon : Bool) : List Bool := (List.range 256).map fun n => isJSONChar comma colon (UInt8.ofNat n)

@[go_run high] theorem tbl_get (a b : Bool) (c : UInt8) : elem (tbl a b) (c.toNat : Int) = .ok (isJSONChar a b c) := by
  have h : c.toNat < 256 := c.toNat_lt
  rw [elem_nat, tbl, List.getElem?_map, List.getElem?_range h]
  simp [ofOpt]

@[go_run] theorem tbl_44 (a b x : Bool) : put (tbl a b) 44 x = .ok (tbl x b) := by
  cases a <;> cases b <;> cases x <;> decide +kernel

@[go_run] theorem tbl_58 (a b x : Bool) : put (tbl a b) 58 x = .ok (tbl a x) := by
  cases a <;> cases b <;> cases x <;> decide +kernel

/-! ### Variables -/

/-- The variables of `core` outside its loops. -/
abbrev cEnv (json : Bytes) (js : Bool) (path : List Bytes) (tb : List Bool) (off : Int) (br : UInt8) (cur : Bytes) (ks : Int) :
    Env :=
  [(go% keyStart, .int ks), (go% braceType, .byte br), (go% isJSONChar, .bools tb),
    (go% chars, .bytes [34, 44, 58, 91, 93, 123, 125]), (go% currentPath, .bytes cur), (go% offset, .int off), (0, .nil),
    (go% json, .bytes json), (go% justStart, .bool js), (go% path, .strs path)]

/-- What `core` returns. -/
def locVals : Out Loc → R (List Val)
  | .ok l => .ok [.int l.keyStart, .int l.start, .int l.stop, .nil]
  | .err e => .ok [.int (-1), .int (-1), .int (-1), .err e]
  | .panic => .panic

def locRes (r : Out Loc) : Res Unit := Res.ofR (locVals r) (.ret ())

theorem locRes_ends (r : Out Loc) : (locRes r).ends = true := by cases r <;> rfl

@[go_run] theorem bne_def {α : Type} [BEq α] (a b : α) : (a != b) = !(a == b) := rfl

@[go_run] theorem last_nat (a b : Nat) : ((a : Int) == (b : Int) - 1) = (a + 1 == b) := by
  rw [Bool.eq_iff_iff]; simp only [beq_iff_eq]; omega

@[go_run] theorem lt_nat (a b : Nat) : ((a : Int) < (b : Int)) = (a < b) := by simp

@[go_run] theorem ite_or (x y : Bool) :
    (if x = true then (R.ok (Val.bool true)) else R.ok (Val.bool y)) = R.ok (Val.bool (x || y)) := by cases x <;> rfl

@[go_run] theorem ite_and (x y : Bool) :
    (if x = true then (R.ok (Val.bool y)) else R.ok (Val.bool false)) = R.ok (Val.bool (x && y)) := by cases x <;> rfl

/-- Two states that are equal by computation. -/
macro "done_go" : tactic =>
  `(tactic| first | done | trivial | exact ⟨rfl, trivial⟩ | exact ⟨trivial, trivial⟩ | rfl)

open Lean in
/-- The same with an invariant. -/
macro "done_with " t:term : tactic =>
  `(tactic| first | done | exact $t | exact ⟨rfl, $t⟩)

theorem pred_nat {a : Nat} (h : 0 < a) : (a : Int) - 1 = ((a - 1 : Nat) : Int) := by omega

theorem getElem?_of_lt {α : Type} {l : List α} {i : Nat} (h : i < l.length) : ∃ c, l[i]? = some c :=
  ⟨_, List.getElem?_eq_getElem h⟩

theorem land_sub {i n : Nat} (h : n < i) : BinOp.run .land (.int ((i : Int) - n)) (.int 1) = .ok (.int ((i - n) % 2 : Nat)) := by
  have e : ((i : Int) - n).toNat = i - n := by omega
  rw [run_land, if_pos ⟨by omega, by omega⟩, e]
  show R.ok (Val.int (((i - n) &&& 1 : Nat) : Int)) = _
  rw [Nat.and_one_is_mod]

theorem mod_sub {i n : Nat} (h : n < i) : BinOp.run .mod (.int ((i : Int) - n)) (.int 2) = .ok (.int ((i - n) % 2 : Nat)) := by
  have e : ((i : Int) - n) = ((i - n : Nat) : Int) := by omega
  rw [run_mod, if_neg (by omega), e, Int.tmod_eq_emod_of_nonneg (by omega)]
  rfl

theorem mod_sub_one {i n : Nat} (h : n < i) :
    BinOp.run .mod (.int ((i : Int) - 1 - n)) (.int 2) = .ok (.int ((i - 1 - n) % 2 : Nat)) := by
  have e : ((i : Int) - 1 - n) = ((i - 1 - n : Nat) : Int) := by omega
  rw [run_mod, if_neg (by omega), e, Int.tmod_eq_emod_of_nonneg (by omega)]
  rfl

theorem lt_two (a : Nat) : ((a : Int) < 2) = (a < 2) := by simp; omega

@[go_run] theorem nat_zero (a : Nat) : ((a : Int) == 0) = (a == 0) := by
  rw [Bool.eq_iff_iff]; simp only [beq_iff_eq]; omega

@[go_run] theorem nat_one (a : Nat) : ((a : Int) == 1) = (a == 1) := by
  rw [Bool.eq_iff_iff]; simp only [beq_iff_eq]; omega

@[go_run] theorem nat_succ (a b : Nat) : ((a : Int) == (b : Int) + 1) = (a == b + 1) := by
  rw [Bool.eq_iff_iff]; simp only [beq_iff_eq]; omega

section
variable {fl : FloatLib UInt64} {fuel d : Nat} {json : Bytes} {path : List Bytes} {js : Bool} {k : Nat} {ks : Int}

theorem core_for4 (hf : json.length + path.length < fuel) (off : Nat) (br : UInt8) (cur : Bytes) :
    exec (ctx fl fuel (d + 1)) fuel Src.core.for4
      ⟨(), (go% err, .nil) :: (go% arrayIndex, .int 0) :: (0, .nil) :: (go% k, .int k) :: (0, .nil) ::
        cEnv json js path (tbl true true) off br cur ks⟩ =
    after (fun z : ZeroSt => ⟨(), (go% err, .nil) :: (go% arrayIndex, .int 0) :: (0, .nil) :: (go% k, .int k) :: (0, .nil) ::
        cEnv json js path (tbl true true) z.offset z.brace z.cur ks⟩) locRes
      (forUp json.length (zeroBody json path k) off ⟨off, br, cur⟩) := by
  run_go [Src.core.for4]
  refine (loop_forUp (fun i (z : ZeroSt) => ⟨(), (go% i, .int i) :: (0, .nil) :: (go% err, .nil) :: (go% arrayIndex, .int 0) :: (0, .nil) :: (go% k, .int k) :: (0, .nil) ::
        cEnv json js path (tbl true true) z.offset z.brace z.cur ks⟩) locRes (fun _ _ => True) (fun _ => True) ?_ ?_ locRes_ends (fun _ _ _ => trivial) ?_
        fuel off ⟨off, br, cur⟩ trivial (by omega)).leave _ ?_ locRes_ends
  · intro i s
    run_go []
  · intro i s
    run_go []
    rfl
  · intro i s hi _
    obtain ⟨c, hc⟩ := getElem?_of_lt hi
    cases h1 : space c <;> cases h2 : c == 123 <;> cases h3 : c == 91 <;> cases h4 : k + 1 == path.length <;>
      cases h5 : path[k + 1]? <;>
      run_go [zeroBody, Src.core.body4, hc, h1, h2, h3, h4, h5, Sim] <;> first | trivial | exact ⟨rfl, trivial⟩
  · intro i s; rfl

/-- The variables of the search for an index other than 0. -/
abbrev aEnv (json : Bytes) (js : Bool) (path : List Bytes) (k : Nat) (ks ai level : Int) (inQuote found : Bool) (ic off : Int)
    (br : UInt8) (cur : Bytes) : Env :=
  (go% indexCount, .int ic) :: (go% found, .bool found) :: (go% inQuote, .bool inQuote) ::
    (go% level, .int level) :: (0, .nil) :: (go% err, .nil) :: (go% arrayIndex, .int ai) :: (0, .nil) ::
    (go% k, .int k) :: (0, .nil) :: cEnv json js path (tbl true false) off br cur ks

theorem core_for6 (hf : json.length + path.length < fuel) {i : Nat} (hi : i ≤ json.length) (c : UInt8) (ai level : Int) (inQuote found : Bool) (ic off : Int)
    (br : UInt8) (cur : Bytes) :
    exec (ctx fl fuel (d + 1)) fuel Src.core.for6
      ⟨(), (go% curr, .byte c) :: (0, .nil) :: (go% i, .int i) :: (0, .nil) :: aEnv json js path k ks ai level inQuote found ic off br cur⟩ =
    match quoteScan json i i with
    | .real => .norm ⟨(), (go% curr, .byte c) :: (0, .nil) :: (go% i, .int i) :: (0, .nil) ::
        aEnv json js path k ks ai level (!inQuote) found ic off br cur⟩
    | _ => .norm ⟨(), (go% curr, .byte c) :: (0, .nil) :: (go% i, .int i) :: (0, .nil) :: aEnv json js path k ks ai level inQuote found ic off br cur⟩ := by
  run_go [Src.core.for6]
  refine (loop_quote (json := json) (i := i) (fun n => ⟨(), (go% n, .int n) :: (0, .nil) :: (go% curr, .byte c) :: (0, .nil) ::
      (go% i, .int i) :: (0, .nil) :: aEnv json js path k ks ai level inQuote found ic off br cur⟩)
      (.norm ⟨(), (go% curr, .byte c) :: (0, .nil) :: (go% i, .int i) :: (0, .nil) ::
        aEnv json js path k ks ai level (!inQuote) found ic off br cur⟩)
      (.norm ⟨(), (go% curr, .byte c) :: (0, .nil) :: (go% i, .int i) :: (0, .nil) :: aEnv json js path k ks ai level inQuote found ic off br cur⟩)
      (.norm ⟨(), (go% curr, .byte c) :: (0, .nil) :: (go% i, .int i) :: (0, .nil) :: aEnv json js path k ks ai level inQuote found ic off br cur⟩)
      ?_ ?_ ?_ ?_ hi fuel i (Nat.le_refl i) (by omega)).trans ?_
  · intro n; run_go []
  · intro n; run_go []
  · intro n; rfl
  · intro n ch hn hc
    cases h1 : ch == 92 <;> cases h2 : (i - n) % 2 == 0 <;> run_go [Src.core.body6, hc, h1, land_sub hn, h2]
  · cases quoteScan json i i <;> rfl

theorem core_for7 (hf : json.length + path.length < fuel) (i : Nat) (c : UInt8) (ai level : Int) (inQuote found : Bool) (ic off : Int)
    (br : UInt8) (cur : Bytes) :
    exec (ctx fl fuel (d + 1)) fuel Src.core.for7
      ⟨(), (go% curr, .byte c) :: (0, .nil) :: (go% i, .int i) :: (0, .nil) :: aEnv json js path k ks ai level inQuote found ic off br cur⟩ =
    after (fun _ => ⟨(), (go% curr, .byte c) :: (0, .nil) :: (go% i, .int i) :: (0, .nil) :: aEnv json js path k ks ai level inQuote found ic off br cur⟩)
      locRes (forUp json.length (peekBody json path k) (i + 1) ()) := by
  run_go [Src.core.for7]
  refine (loop_forUp (fun j _ => ⟨(), (go% j, .int j) :: (0, .nil) :: (go% curr, .byte c) :: (0, .nil) :: (go% i, .int i) ::
      (0, .nil) :: aEnv json js path k ks ai level inQuote found ic off br cur⟩) locRes (fun _ _ => True) (fun _ => True) ?_ ?_ locRes_ends
      (fun _ _ _ => trivial) ?_ fuel (i + 1) () trivial (by omega)).leave _ ?_ locRes_ends
  · intro j s
    run_go []
  · intro j s
    run_go []
    rfl
  · intro j s hj _
    obtain ⟨c, hc⟩ := getElem?_of_lt hj
    cases h1 : space c <;> cases h2 : c == 123 <;> cases h3 : c == 91 <;> cases h4 : k + 1 == path.length <;>
      run_go [peekBody, Src.core.body7, hc, h1, h2, h3, h4, Sim] <;> first | trivial | exact ⟨rfl, trivial⟩
  · intro i s; rfl

theorem core_for5 (hf : json.length + path.length < fuel) (ai : Int) (s : ArrSt) :
    exec (ctx fl fuel (d + 1)) fuel Src.core.for5 ⟨(), aEnv json js path k ks ai s.level s.inQuote s.found s.indexCount s.offset s.brace s.cur⟩ =
    after (fun s : ArrSt => ⟨(), aEnv json js path k ks ai s.level s.inQuote s.found s.indexCount s.offset s.brace s.cur⟩) locRes
      (forUp json.length (arrBody json path k ai) s.offset s) := by
  run_go [Src.core.for5]
  refine (loop_forUp (hi := json.length) (b := arrBody json path k ai) (fun i (s : ArrSt) => ⟨(), (go% i, .int i) :: (0, .nil) :: aEnv json js path k ks ai s.level s.inQuote s.found s.indexCount s.offset s.brace s.cur⟩) locRes
      (fun _ _ => True) (fun _ => True) ?_ ?_ locRes_ends
      (fun _ _ _ => trivial) ?_ fuel s.offset s trivial (by omega)).leave _ ?_ locRes_ends
  · intro j s
    run_go []
  · intro j s
    run_go []
    rfl
  · intro i s hi _
    obtain ⟨c, hc⟩ := getElem?_of_lt hi
    obtain ⟨level, inQuote, found, ic, off, br, cur⟩ := s
    cases h0 : isJSONChar true false c
    · run_go [arrBody, Src.core.body5, hc, h0, Sim]
      done_go
    cases h1 : c == 34
    rotate_left
    · cases h2 : quoteScan json i i <;> run_go [arrBody, Src.core.body5, hc, h0, h1, core_for6 hf (Nat.le_of_lt hi), h2, Sim] <;>
        done_go
    cases inQuote
    rotate_left
    · run_go [arrBody, Src.core.body5, hc, h0, h1, Sim]
      done_go
    cases hx : (!found && level == 1 && c == 44)
    rotate_left
    · simp only [Bool.and_eq_true, Bool.not_eq_true'] at hx
      obtain ⟨⟨rfl, h2⟩, h3⟩ := hx
      cases h4 : ic + 1 == ai
      · run_go [arrBody, Src.core.body5, hc, h0, h1, h2, h3, h4, Sim]
        done_go
      · cases h5 : forUp json.length (peekBody json path k) (i + 1) () with
        | done u =>
          cases h6 : k + 1 == path.length <;>
            run_go [arrBody, Src.core.body5, hc, h0, h1, h2, h3, h4, Sim, core_for7 hf, h5, after, h6] <;> done_go
        | ret r =>
          cases r <;>
            run_go [arrBody, Src.core.body5, hc, h0, h1, h2, h3, h4, Sim, core_for7 hf, h5, after, locRes, locVals]
    · cases found
      · cases h2 : level == 1 <;> cases h3 : c == 44 <;> simp only [h2, h3, Bool.not_false, Bool.true_and, Bool.and_self, reduceCtorEq] at hx
        all_goals
        cases h4 : c == 91 || c == 123 <;> cases h6 : c == 93 || c == 125 <;>
          by_cases h8 : level < 2 <;> run_go [arrBody, Src.core.body5, hc, h0, h1, h2, h3, h4, h6, lt_two, h8, Sim] <;>
          first | done_go | (rw [pred_nat (by omega)]; done_go)
      · cases h4 : c == 91 || c == 123 <;> cases h6 : c == 93 || c == 125 <;>
          by_cases h8 : level < 2 <;> cases h9 : path[k + 1]? <;>
          run_go [arrBody, Src.core.body5, hc, h0, h1, h4, h6, lt_two, h8, h9, Sim] <;>
          first | done_go | (rw [pred_nat (by omega)]; done_go)
  · intro i s; rfl

/-- The variables of the search for a key. -/
abbrev kEnv (json : Bytes) (js : Bool) (path : List Bytes) (tb : List Bool) (k level : Int) (inQuote found : Bool)
    (start stop off : Int) (br : UInt8) (cur : Bytes) (ks : Int) : Env :=
  (go% level, .int level) :: (go% «end», .int stop) :: (go% start, .int start) :: (go% found, .bool found) ::
    (go% inQuote, .bool inQuote) :: (0, .nil) :: (go% k, .int k) :: (0, .nil) :: cEnv json js path tb off br cur ks

variable {tb : List Bool} {level start stop off : Int} {inQuote found : Bool} {br : UInt8} {cur : Bytes}

theorem core_for9 (hf : json.length + path.length < fuel) {i : Nat} (hi : i ≤ json.length) (c : UInt8) :
    exec (ctx fl fuel (d + 1)) fuel Src.core.for9
      ⟨(), (go% curr, .byte c) :: (0, .nil) :: (go% i, .int i) :: (0, .nil) ::
        kEnv json js path tb k level inQuote found start stop off br cur ks⟩ =
    match quoteScan json i i with
    | .real => .norm ⟨(), (go% curr, .byte c) :: (0, .nil) :: (go% i, .int i) :: (0, .nil) ::
        kEnv json js path tb k level (!inQuote) found start stop off br cur ks⟩
    | .escaped => .jump (go% cont) ⟨(), (go% curr, .byte c) :: (0, .nil) :: (go% i, .int i) :: (0, .nil) ::
        kEnv json js path tb k level inQuote found start stop off br cur ks⟩
    | .off => .norm ⟨(), (go% curr, .byte c) :: (0, .nil) :: (go% i, .int i) :: (0, .nil) ::
        kEnv json js path tb k level inQuote found start stop off br cur ks⟩ := by
  run_go [Src.core.for9]
  refine loop_quote (json := json) (i := i) (fun n => ⟨(), (go% n, .int n) :: (0, .nil) :: (go% curr, .byte c) :: (0, .nil) ::
      (go% i, .int i) :: (0, .nil) :: kEnv json js path tb k level inQuote found start stop off br cur ks⟩) _ _ _
      ?_ ?_ ?_ ?_ hi fuel i (Nat.le_refl i) (by omega)
  · intro n; run_go []
  · intro n; run_go []
  · intro n; rfl
  · intro n ch hn hc
    cases h1 : ch == 92 <;> cases h2 : (i - n) % 2 == 0 <;> run_go [Src.core.body9, hc, h1, land_sub hn, h2]

theorem core_for12 (hf : json.length + path.length < fuel) {j : Nat} (hj : j ≤ json.length) (c c' : UInt8) (il i : Int) :
    exec (ctx fl fuel (d + 1)) fuel Src.core.for12
      ⟨(), (go% curr, .byte c') :: (0, .nil) :: (go% j, .int j) :: (0, .nil) :: (go% innerLevel, .int il) :: (0, .nil) ::
        (go% curr, .byte c) :: (0, .nil) :: (go% i, .int i) :: (0, .nil) ::
        kEnv json js path tb k level inQuote found start stop off br cur ks⟩ =
    match quoteScan json j j with
    | .real => .norm ⟨(), (go% curr, .byte c') :: (0, .nil) :: (go% j, .int j) :: (0, .nil) :: (go% innerLevel, .int il) ::
        (0, .nil) :: (go% curr, .byte c) :: (0, .nil) :: (go% i, .int i) :: (0, .nil) ::
        kEnv json js path tb k level (!inQuote) found start stop off br cur ks⟩
    | _ => .norm ⟨(), (go% curr, .byte c') :: (0, .nil) :: (go% j, .int j) :: (0, .nil) :: (go% innerLevel, .int il) ::
        (0, .nil) :: (go% curr, .byte c) :: (0, .nil) :: (go% i, .int i) :: (0, .nil) ::
        kEnv json js path tb k level inQuote found start stop off br cur ks⟩ := by
  run_go [Src.core.for12]
  refine (loop_quote (json := json) (i := j) (fun n => ⟨(), (go% n, .int n) :: (0, .nil) ::
      (go% curr, .byte c') :: (0, .nil) :: (go% j, .int j) :: (0, .nil) :: (go% innerLevel, .int il) ::
      (0, .nil) :: (go% curr, .byte c) :: (0, .nil) :: (go% i, .int i) :: (0, .nil) ::
      kEnv json js path tb k level inQuote found start stop off br cur ks⟩)
      (.norm ⟨(), (go% curr, .byte c') :: (0, .nil) :: (go% j, .int j) :: (0, .nil) :: (go% innerLevel, .int il) ::
        (0, .nil) :: (go% curr, .byte c) :: (0, .nil) :: (go% i, .int i) :: (0, .nil) ::
        kEnv json js path tb k level (!inQuote) found start stop off br cur ks⟩)
      (.norm ⟨(), (go% curr, .byte c') :: (0, .nil) :: (go% j, .int j) :: (0, .nil) :: (go% innerLevel, .int il) ::
        (0, .nil) :: (go% curr, .byte c) :: (0, .nil) :: (go% i, .int i) :: (0, .nil) ::
        kEnv json js path tb k level inQuote found start stop off br cur ks⟩)
      (.norm ⟨(), (go% curr, .byte c') :: (0, .nil) :: (go% j, .int j) :: (0, .nil) :: (go% innerLevel, .int il) ::
        (0, .nil) :: (go% curr, .byte c) :: (0, .nil) :: (go% i, .int i) :: (0, .nil) ::
        kEnv json js path tb k level inQuote found start stop off br cur ks⟩)
      ?_ ?_ ?_ ?_ hj fuel j (Nat.le_refl j) (by omega)).trans ?_
  · intro n; run_go []
  · intro n; run_go []
  · intro n; rfl
  · intro n ch hn hc
    have h3 : ((j - 1 - n) % 2 == 0) = !((j - n) % 2 == 0) := by
      rw [Bool.eq_iff_iff]; simp only [beq_iff_eq, Bool.not_eq_true', beq_eq_false_iff_ne]; omega
    cases h1 : ch == 92 <;> cases h2 : (j - n) % 2 == 0 <;> run_go [Src.core.body12, hc, h1, mod_sub_one hn, h2, h3]
  · cases quoteScan json j j <;> rfl

/-- The comparison of a key with the path, byte by byte. -/
def sameBody (json cur : Bytes) (start j : Nat) (s : Bool) : Ctl Bool Unit :=
  if cur[j]? == json[start + j]? then .next s else .brk false

theorem sameBody_run (json cur : Bytes) (start : Nat) (h : start + cur.length ≤ json.length) :
    ∀ m j, cur.length - j = m → j ≤ cur.length →
      forUp cur.length (sameBody json cur start) j true =
        .done ((json.drop (start + j)).take (cur.length - j) == cur.drop j) := by
  intro m
  induction m with
  | zero =>
    intro j hm hj
    have : j = cur.length := by omega
    subst this
    rw [forUp]
    simp
  | succ m ih =>
    intro j hm hj
    have hj' : j < cur.length := by omega
    have hk : start + j < json.length := by omega
    rw [forUp, if_pos hj', sameBody, List.getElem?_eq_getElem hj', List.getElem?_eq_getElem hk]
    have e1 : cur.drop j = cur[j] :: cur.drop (j + 1) := List.drop_eq_getElem_cons hj'
    have e2 : json.drop (start + j) = json[start + j] :: json.drop (start + j + 1) := List.drop_eq_getElem_cons hk
    have e3 : cur.length - j = (cur.length - (j + 1)) + 1 := by omega
    rw [e1, e2, e3, List.take_succ_cons]
    by_cases he : cur[j] = json[start + j]
    · rw [he]
      simp only [beq_self_eq_true, if_true]
      rw [ih (j + 1) (by omega) (by omega)]
      simp [Nat.add_assoc]
    · have h1 : (some cur[j] == some json[start + j]) = false := by simpa using he
      rw [h1]
      have h2 : (json[start + j] == cur[j]) = false := by simpa using fun h => he h.symm
      rw [List.cons_beq_cons, h2]
      rfl

theorem core_for10 (hf : json.length + path.length + cur.length < fuel) (c : UInt8) {i start : Nat}
    (h : start + cur.length ≤ json.length) :
    exec (ctx fl fuel (d + 1)) fuel Src.core.for10
      ⟨(), (go% same, .bool true) :: (0, .nil) :: (0, .nil) :: (go% curr, .byte c) :: (0, .nil) :: (go% i, .int i) :: (0, .nil) ::
        kEnv json js path tb k level inQuote found start stop off br cur ks⟩ =
    .norm ⟨(), (go% same, .bool ((json.drop start).take cur.length == cur)) :: (0, .nil) :: (0, .nil) :: (go% curr, .byte c) :: (0, .nil) ::
        (go% i, .int i) :: (0, .nil) ::
        kEnv json js path tb k level inQuote found start stop off br cur ks⟩ := by
  run_go [Src.core.for10]
  refine ((loop_forUp (hi := cur.length) (b := sameBody json cur start) (fun j (s : Bool) => ⟨(), (go% j, .int j) :: (0, .nil) ::
      (go% same, .bool s) :: (0, .nil) :: (0, .nil) :: (go% curr, .byte c) :: (0, .nil) :: (go% i, .int i) :: (0, .nil) ::
      kEnv json js path tb k level inQuote found start stop off br cur ks⟩) (fun _ => .panic) (fun _ _ => True)
      (fun _ => True) ?_ ?_ (fun _ => rfl) (fun _ _ _ => trivial) ?_ fuel 0 true trivial (by omega)).leave
      (fun s => ⟨(), (go% same, .bool s) :: (0, .nil) :: (0, .nil) :: (go% curr, .byte c) :: (0, .nil) :: (go% i, .int i) :: (0, .nil) ::
      kEnv json js path tb k level inQuote found start stop off br cur ks⟩) ?_ (fun _ => rfl)).trans ?_
  · intro j s
    run_go []
  · intro j s
    run_go []
    rfl
  · intro j s hj _
    obtain ⟨x, hx⟩ := getElem?_of_lt hj
    obtain ⟨y, hy⟩ := getElem?_of_lt (show start + j < json.length by omega)
    have e : elem json ((start : Int) + j) = .ok y := by rw [← Int.natCast_add, elem_nat, hy]; rfl
    have e' : (some x == some y) = (x == y) := by simp
    cases h1 : x == y <;> run_go [Src.core.body10, sameBody, hx, hy, e, e', h1, Sim] <;> done_go
  · intro i s; rfl
  · rw [sameBody_run json cur start h _ 0 rfl (by omega)]
    rfl

theorem core_for11 (hf : json.length + path.length < fuel) (c : UInt8) (i level : Nat) :
    exec (ctx fl fuel (d + 1)) fuel Src.core.for11
      ⟨(), (go% innerLevel, .int level) :: (0, .nil) :: (go% curr, .byte c) :: (0, .nil) :: (go% i, .int i) :: (0, .nil) ::
        kEnv json js path (tbl true false) k level inQuote found start stop off br cur ks⟩ =
    after (fun s : JumpSt => ⟨(), (go% innerLevel, .int s.innerLevel) :: (0, .nil) :: (go% curr, .byte c) :: (0, .nil) ::
        (go% i, .int (s.stop.getD i : Nat)) :: (0, .nil) ::
        kEnv json js path (tbl true false) k level s.inQuote found start stop off br cur ks⟩) locRes
      (forUp json.length (jumpBody json k cur) i ⟨level, inQuote, none⟩) ∧
    ∀ s, forUp json.length (jumpBody json k cur) i ⟨level, inQuote, none⟩ = .done s → i ≤ s.stop.getD i := by
  run_go [Src.core.for11]
  have key := loop_forUp (hi := json.length) (b := jumpBody json k cur)
      (c := fun s => (eval (ctx fl fuel (d + 1)) s.env (.bin .lt (.var (go% j)) (.len (.var (go% json))))).bind Val.bool?)
      (post := fun s => exec (ctx fl fuel (d + 1)) fuel (.assign (go% j) (.bin .add (.var (go% j)) (.lit (.int 1)))) s)
      (body := fun s => exec (ctx fl fuel (d + 1)) fuel Src.core.body11 s)
      (fun j (s : JumpSt) => ⟨(), (go% j, .int j) :: (0, .nil) ::
      (go% innerLevel, .int s.innerLevel) :: (0, .nil) :: (go% curr, .byte c) :: (0, .nil) ::
        (go% i, .int (s.stop.getD i : Nat)) :: (0, .nil) ::
        kEnv json js path (tbl true false) k level s.inQuote found start stop off br cur ks⟩) locRes
        (fun j s => i ≤ j ∧ i ≤ s.stop.getD i) (fun s => i ≤ s.stop.getD i) ?_ ?_ locRes_ends (fun _ _ h => h.2) ?_ fuel i
        ⟨level, inQuote, none⟩ ⟨Nat.le_refl i, Nat.le_refl i⟩ (by omega)
  refine ⟨key.leave _ ?_ locRes_ends, fun s hs => key.inv hs⟩
  · intro i s; rfl
  · intro j s
    run_go []
  · intro j s
    run_go []
    rfl
  · rintro j ⟨il, q, st⟩ hj ⟨h1, h2⟩
    obtain ⟨c, hc⟩ := getElem?_of_lt hj
    have h2' : i ≤ (some j).getD i := h1
    cases h0 : isJSONChar true false c
    · run_go [jumpBody, Src.core.body11, hc, h0, Sim]
      done_with ⟨by omega, h2⟩
    cases h1 : c == 34
    rotate_left
    · cases h3 : quoteScan json j j <;> run_go [jumpBody, Src.core.body11, hc, h0, h1, core_for12 hf (Nat.le_of_lt hj), h3, Sim] <;>
        done_with ⟨by omega, h2⟩
    cases q
    rotate_left
    · run_go [jumpBody, Src.core.body11, hc, h0, h1, Sim]
      done_with ⟨by omega, h2⟩
    have h8 : ((il : Int) < (k : Int) + 1) = (il < k + 1) := by simp; omega
    cases h4 : c == 91 || c == 123 <;> cases h6 : c == 93 || c == 125 <;> by_cases h7 : il < k + 1 <;>
      cases h9 : c == 44 <;> cases h10 : il == k + 1 <;>
      run_go [jumpBody, Src.core.body11, hc, h0, h1, h4, h6, h7, h8, h9, h10, Sim, locRes, locVals] <;>
      first
        | done_with ⟨by omega, h2⟩
        | (rw [pred_nat (by omega)]; done_with ⟨by omega, h2⟩)
        | done_with h2'

end

section
variable {fl : FloatLib UInt64} {fuel d : Nat} {json : Bytes} {path : List Bytes} {js : Bool}

theorem length_le_sum {p : Bytes} : ∀ {path : List Bytes}, p ∈ path → p.length ≤ (path.map List.length).sum
  | q :: path, h => by
    rw [List.map_cons, List.sum_cons]
    rcases List.mem_cons.1 h with rfl | h
    · omega
    · have := length_le_sum h
      omega

theorem core_for8 (hf : json.length + path.length + (path.map List.length).sum < fuel) (s : KeySt)
    (hcur : s.cur ∈ path) (hstop : s.stop ≤ json.length) :
    exec (ctx fl fuel (d + 1)) fuel Src.core.for8
      ⟨(), kEnv json js path (tbl false true) s.k s.level s.inQuote s.found s.start s.stop s.offset s.brace s.cur s.keyStart⟩ =
    after (fun s : KeySt =>
      ⟨(), kEnv json js path (tbl false true) s.k s.level s.inQuote s.found s.start s.stop s.offset s.brace s.cur s.keyStart⟩)
      locRes (forUp json.length (keyBody json path) s.offset s) ∧
    ∀ t, forUp json.length (keyBody json path) s.offset s = .done t → s.k ≤ t.k ∧ t.cur ∈ path := by
  run_go [Src.core.for8]
  have key := loop_forUp (hi := json.length) (b := keyBody json path)
      (c := fun s => (eval (ctx fl fuel (d + 1)) s.env (.bin .lt (.var (go% i)) (.len (.var (go% json))))).bind Val.bool?)
      (post := fun s => exec (ctx fl fuel (d + 1)) fuel (.assign (go% i) (.bin .add (.var (go% i)) (.lit (.int 1)))) s)
      (body := fun s => exec (ctx fl fuel (d + 1)) fuel Src.core.body8 s)
      (fun i (s : KeySt) => ⟨(), (go% i, .int i) :: (0, .nil) ::
        kEnv json js path (tbl false true) s.k s.level s.inQuote s.found s.start s.stop s.offset s.brace s.cur s.keyStart⟩)
        locRes (fun _ t => s.k ≤ t.k ∧ t.cur ∈ path ∧ t.stop ≤ json.length) (fun t => s.k ≤ t.k ∧ t.cur ∈ path) ?_ ?_
        locRes_ends (fun _ _ h => ⟨h.1, h.2.1⟩) ?_ fuel s.offset s ⟨Nat.le_refl _, hcur, hstop⟩ (by omega)
  refine ⟨key.leave _ ?_ locRes_ends, fun s hs => key.inv hs⟩
  · intro i s; rfl
  · intro j s
    run_go []
  · intro j s
    run_go []
    rfl
  · obtain ⟨k0, -⟩ := s
    rintro i ⟨k, level, q, found, start, stop, off, br, cur, ks⟩ hi ⟨hk, hm, hst⟩
    simp only at hk hm hst
    have hsum := length_le_sum hm
    have hf' : json.length + path.length < fuel := by omega
    have hf'' : json.length + path.length + cur.length < fuel := by omega
    have hP : k0 ≤ k ∧ cur ∈ path ∧ stop ≤ json.length := ⟨hk, hm, hst⟩
    have hP' : k0 ≤ k ∧ cur ∈ path ∧ i ≤ json.length := ⟨hk, hm, Nat.le_of_lt hi⟩
    obtain ⟨c, hc⟩ := getElem?_of_lt hi
    cases h0 : isJSONChar false true c
    · run_go [keyBody, Src.core.body8, hc, h0, Sim]
      done_with hP
    cases h1 : c == 34
    rotate_left
    · cases found
      rotate_left
      · run_go [keyBody, Src.core.body8, hc, h0, h1, Sim]
        done_with hP
      cases h2 : level == k + 1
      · run_go [keyBody, Src.core.body8, hc, h0, h1, h2, Sim]
        done_with hP
      cases h3 : quoteScan json i i <;> cases q <;>
        run_go [keyBody, Src.core.body8, hc, h0, h1, h2, h3, Sim, core_for9 hf' (Nat.le_of_lt hi)] <;>
        first | done_with hP | done_with hP'
    cases q
    rotate_left
    · run_go [keyBody, Src.core.body8, hc, h0, h1, Sim]
      done_with hP
    cases h2 : (level == k + 1 && c == 58)
    rotate_left
    · rw [Bool.and_eq_true] at h2
      obtain ⟨h2, h3⟩ := h2
      cases h5 : ((cur.length : Int) == (stop : Int) - (start : Int))
      · obtain ⟨e1, e2⟩ := core_for11 (fl := fl) (d := d) (js := js) (inQuote := false) (found := found) (start := start)
          (stop := stop) (off := off) (br := br) (cur := cur) (k := k) (ks := ks) hf' c i level
        cases h6 : forUp json.length (jumpBody json k cur) i ⟨level, false, none⟩ with
        | ret r =>
          rw [h6] at e1
          cases r <;> run_go [keyBody, sameKey, Src.core.body8, hc, h0, h1, h2, h3, h5, h6, e1, after, locRes, locVals, Sim]
        | done t =>
          rw [h6] at e1
          run_go [keyBody, sameKey, Src.core.body8, hc, h0, h1, h2, h3, h5, h6, e1, after, Sim]
          rw [Nat.max_eq_right (e2 t h6)]
          done_with hP
      · have h7 : start + cur.length ≤ json.length := by simp only [beq_iff_eq] at h5; omega
        cases h4 : (json.drop start).take cur.length == cur
        · obtain ⟨e1, e2⟩ := core_for11 (fl := fl) (d := d) (js := js) (inQuote := false) (found := found) (start := start)
            (stop := stop) (off := off) (br := br) (cur := cur) (k := k) (ks := ks) hf' c i level
          cases h6 : forUp json.length (jumpBody json k cur) i ⟨level, false, none⟩ with
          | ret r =>
            rw [h6] at e1
            cases r <;> run_go [keyBody, sameKey, Src.core.body8, hc, h0, h1, h2, h3, h5, h4, core_for10 hf'' c h7, h6, e1,
              after, locRes, locVals, Sim]
          | done t =>
            rw [h6] at e1
            run_go [keyBody, sameKey, Src.core.body8, hc, h0, h1, h2, h3, h5, h4, core_for10 hf'' c h7, h6, e1, after, Sim]
            rw [Nat.max_eq_right (e2 t h6)]
            done_with hP
        · cases h8 : k + 1 == path.length <;>
            run_go [keyBody, sameKey, Src.core.body8, hc, h0, h1, h2, h3, h5, h4, core_for10 hf'' c h7, h8, Sim] <;>
            first | done_with hP | done_with ⟨hk, hm⟩
    · have hP2 : ∀ p, path[k + 1]? = some p → k0 ≤ k + 1 ∧ p ∈ path ∧ stop ≤ json.length :=
        fun p h => ⟨by omega, List.mem_of_getElem? h, hst⟩
      have hP3 : ∀ p, path[k + 1]? = some p → k0 ≤ k ∧ p ∈ path := fun p h => ⟨by omega, List.mem_of_getElem? h⟩
      have h8 : ((level : Int) < (k : Int) + 1) = (level < k + 1) := by simp; omega
      cases h4 : c == 91 <;> cases h9 : c == 123 <;> cases h6 : c == 93 || c == 125 <;> by_cases h7 : level < k + 1 <;>
        cases found <;> cases h5 : path[k + 1]? <;>
        cases hlc : level == k + 1 <;> cases h58 : c == 58 <;>
        simp only [hlc, h58, Bool.and_self, Bool.and_false, Bool.and_true, reduceCtorEq] at h2 <;>
        run_go [keyBody, Src.core.body8, hc, h0, h1, hlc, h58, h4, h9, h6, h7, h8, h5, Sim, locRes, locVals] <;>
        first
          | done_with hP
          | done_with hP2 _ h5
          | done_with hP3 _ h5
          | (rw [pred_nat (by omega)]; done_with hP)

/-- The state of `core` in its loop over the path. -/
abbrev oSt (json : Bytes) (js : Bool) (path : List Bytes) (s : CoreSt) : St Unit :=
  ⟨(), (go% k, .int s.k) :: (0, .nil) :: cEnv json js path (tbl true true) s.offset s.brace s.cur s.keyStart⟩

/-- The state that an iteration ends with satisfies `P`. -/
def Keeps {σ ρ : Type} (P : σ → Prop) : Ctl σ ρ → Prop
  | .next s => P s
  | .goto _ s => P s
  | .brk s => P s
  | .ret _ => True

theorem forUp_keeps {σ ρ : Type} {hi : Nat} {b : Nat → σ → Ctl σ ρ} (P : σ → Prop)
    (h : ∀ i s, P s → Keeps P (b i s)) :
    ∀ m i s, hi - i = m → P s → ∀ t, forUp hi b i s = .done t → P t := by
  intro m
  induction m using Nat.strongRecOn with
  | _ m ih =>
    intro i s hm hP t ht
    rw [forUp] at ht
    split at ht
    · have h := h i s hP
      split at ht
      · rename_i e; rw [e] at h; exact ih _ (by omega) _ _ rfl h t ht
      · rename_i e; rw [e] at h; exact ih _ (by omega) _ _ rfl h t ht
      · rename_i e; rw [e] at h; cases ht; exact h
      · cases ht
    · cases ht; exact hP

theorem arr_cur (json : Bytes) (path : List Bytes) (k : Nat) (n : Int) (i : Nat) (s : ArrSt) (h : s.cur ∈ path) :
    ∀ t, forUp json.length (arrBody json path k n) i s = .done t → t.cur ∈ path := by
  refine forUp_keeps (fun s : ArrSt => s.cur ∈ path) ?_ _ i s rfl h
  intro i s hs
  simp only [arrBody]
  repeat' split
  all_goals first
    | exact hs
    | trivial
    | exact List.mem_of_getElem? (by assumption)

theorem zero_cur (json : Bytes) (path : List Bytes) (k : Nat) (i : Nat) (s : ZeroSt) (h : s.cur ∈ path) :
    ∀ t, forUp json.length (zeroBody json path k) i s = .done t → t.cur ∈ path := by
  refine forUp_keeps (fun s : ZeroSt => s.cur ∈ path) ?_ _ i s rfl h
  intro i s hs
  simp only [zeroBody]
  repeat' split
  all_goals first
    | exact hs
    | trivial
    | exact List.mem_of_getElem? (by assumption)

theorem core_body3 (hf : json.length + path.length + (path.map List.length).sum < fuel) (s : CoreSt) (hcur : s.cur ∈ path) :
    match coreStep json path s with
    | .ret r => exec (ctx fl fuel (d + 1)) fuel Src.core.body3 (oSt json js path s) = locRes r
    | .done t => (exec (ctx fl fuel (d + 1)) fuel Src.core.body3 (oSt json js path s)).goes = some (oSt json js path t) ∧
        s.k ≤ t.k ∧ t.cur ∈ path := by
  obtain ⟨k, off, br, cur, ks⟩ := s
  have hf' : json.length + path.length < fuel := by omega
  cases h1 : br == 91
  · obtain ⟨e1, e2⟩ := core_for8 (fl := fl) (d := d) (js := js) hf ⟨k, k, false, false, 0, 0, off, br, cur, ks⟩ hcur (by simp)
    simp only [Int.natCast_zero] at e1 e2
    cases h2 : forUp json.length (keyBody json path) off ⟨k, k, false, false, 0, 0, off, br, cur, ks⟩ with
    | ret r =>
      rw [h2] at e1
      cases r <;> run_go [coreStep, h1, h2, Src.core.body3, e1, after, locRes, locVals]
    | done t =>
      rw [h2] at e1
      obtain ⟨e3, e4⟩ := e2 t h2
      obtain ⟨_, _, _, found, _⟩ := t
      cases found <;> run_go [coreStep, h1, h2, Src.core.body3, e1, after, locRes, locVals] <;> done_with ⟨e3, e4⟩
  · cases h2 : atoi cur with
    | none =>
      run_go [coreStep, h1, h2, Src.core.body3, locRes, locVals, Option.map_none, orErr]
    | some n =>
      cases h3 : n == 0
      · have e1 := core_for5 (fl := fl) (d := d) (js := js) (k := k) (ks := ks) hf' n ⟨0, false, false, 0, off, br, cur⟩
        have e2 := arr_cur json path k n off ⟨0, false, false, 0, off, br, cur⟩ hcur
        simp only [Int.natCast_zero] at e1 e2
        cases h4 : forUp json.length (arrBody json path k n) off ⟨0, false, false, 0, off, br, cur⟩ with
        | ret r =>
          rw [h4] at e1
          cases r <;> run_go [coreStep, h1, h2, h3, h4, Src.core.body3, e1, after, locRes, locVals, Option.map_some, orErr]
        | done t =>
          rw [h4] at e1
          have e3 := e2 t h4
          obtain ⟨_, _, found, _⟩ := t
          cases found <;>
            run_go [coreStep, h1, h2, h3, h4, Src.core.body3, e1, after, locRes, locVals, Option.map_some, orErr] <;>
            done_with ⟨Nat.le_refl k, e3⟩
      · have h0 : n = 0 := by simpa using h3
        subst h0
        have e1 := core_for4 (fl := fl) (d := d) (js := js) (k := k) (ks := ks) hf' (off + 1) br cur
        have e2 := zero_cur json path k (off + 1) ⟨off + 1, br, cur⟩ hcur
        rw [Int.natCast_succ] at e1
        cases h4 : forUp json.length (zeroBody json path k) (off + 1) ⟨off + 1, br, cur⟩ with
        | ret r =>
          rw [h4] at e1
          cases r <;> run_go [coreStep, h1, h2, h4, Src.core.body3, e1, after, locRes, locVals, Option.map_some, orErr]
        | done t =>
          rw [h4] at e1
          run_go [coreStep, h1, h2, h4, Src.core.body3, e1, after, locRes, locVals, Option.map_some, orErr]
          done_with ⟨Nat.le_refl k, e2 t h4⟩

end

end Jin.Go
