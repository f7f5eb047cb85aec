import Verif.Go.Find
/-!
# Go.Utils — the functions of `utils.go`
-/

namespace Jin.Go

/-! ### Rules for slices and indices -/

/-- A result that is not an error. -/
def outR {α : Type} : Out α → R α
  | .ok a => .ok a
  | .err _ => .stuck
  | .panic => .panic

@[go_run] theorem outR_ok {α : Type} (a : α) : outR (.ok a) = .ok a := rfl
@[go_run] theorem outR_panic {α : Type} : outR (.panic : Out α) = .panic := rfl

@[go_run] theorem cut_slice (b : Bytes) (lo hi : Int) : cut b lo hi = outR (slice b lo hi) := by
  rw [cut, slice]; split <;> rfl

theorem elem_at (b : Bytes) (i : Int) : elem b i = ofOpt (at? b i) := by
  rw [elem, at?]
  split
  · rfl
  · cases b[i.toNat]? <;> rfl

theorem elem_idx (b : Bytes) (i : Int) : elem b i = outR (idx b i) := by
  rw [elem_at, idx]; cases at? b i <;> rfl

def outOpt {α : Type} : Option α → Out α
  | some a => .ok a
  | none => .panic

theorem idx_nat (b : Bytes) (i : Nat) : idx b (i : Int) = outOpt b[i]? := by
  rw [idx, at?, if_neg (by omega), Int.toNat_natCast]
  cases b[i]? <;> rfl

/-- `len(s) - 1` -/
theorem elem_last (b : Bytes) : elem b ((b.length : Int) - 1) = ofOpt b.getLast? := by
  rw [List.getLast?_eq_getElem?]
  cases b with
  | nil => rfl
  | cons c t =>
    have e : (((c :: t).length : Nat) : Int) - 1 = (t.length : Int) := by simp
    rw [e, elem_nat]
    simp

theorem elem_first (b : Bytes) : elem b 0 = ofOpt b.head? := by rw [elem_zero, List.head?_eq_getElem?]

theorem slice_bad {b : Bytes} {lo hi : Int} (h : slice b lo hi ≠ .panic) : slice b lo hi = .ok ((b.drop lo.toNat).take (hi.toNat - lo.toNat)) := by
  rw [slice] at h ⊢
  split
  · rfl
  · simp_all

section
variable {fl : FloatLib UInt64} {fuel d : Nat} {sp : Bool}

/-- A loop without `break`: `p` is its condition, `next` its body, `f` what it does as a whole. -/
theorem loop_while {W σ : Type} {c : St W → R Bool} {post body : St W → Res W} (E : σ → St W) (p : σ → Bool) (next f : σ → σ)
    (I : σ → Prop) (m : σ → Nat)
    (hc : ∀ s, I s → c (E s) = .ok (p s))
    (hb : ∀ s, I s → p s = true → ∃ t, (body (E s)).goes = some t ∧ post t = .norm (E (next s)) ∧ I (next s) ∧ m (next s) < m s)
    (hf : ∀ s, I s → f s = if p s then f (next s) else s) :
    ∀ n s, I s → m s < n → loopN c post body n (E s) = .norm (E (f s)) := by
  intro n
  induction n with
  | zero => intro s _ h; omega
  | succ n ih =>
    intro s hI hn
    cases hp : p s with
    | true =>
      obtain ⟨t, h1, h2, h3, h4⟩ := hb s hI hp
      rw [loopN_goes (by rw [hc s hI, hp]) h1, h2, hf s hI, if_pos hp]
      exact ih _ h3 (by omega)
    | false =>
      rw [loopN_end (by rw [hc s hI, hp]), hf s hI, if_neg (by simp [hp])]

/-! ### What the text imports -/

@[go_run] theorem run_itoa (n : Int) : (jin fl).fn fuel (d + 1) (go% strconv.Itoa) sp [.int n] = .ok [.bytes (itoa n)] := rfl
@[go_run] theorem run_parseInt (s : Bytes) : (jin fl).fn fuel (d + 1) (go% strconv.ParseInt) sp [.bytes s, .int 10, .int 32] =
    orErr ((parseIntBits 32 s).map .int) (.int 0) := fn_lib rfl ..
@[go_run] theorem run_parseFloat (s : Bytes) : (jin fl).fn fuel (d + 1) (go% strconv.ParseFloat) sp [.bytes s, .int 64] =
    orErr ((fl.parse s).map .float) (.float 0) := fn_lib rfl ..
@[go_run] theorem run_formatFloat (x : UInt64) :
    (jin fl).fn fuel (d + 1) (go% strconv.FormatFloat) sp [.float x, .int 102, .int (-1), .int 64] =
      .ok [.bytes (fl.format x)] := rfl
@[go_run] theorem run_errEqual (e : Err) (n : Int) :
    (jin fl).fn fuel (d + 1) (go% ErrEqual) sp [.err e, .int n] = .ok [.bool (errEqual (some e) n)] := rfl
@[go_run] theorem run_errEqual_nil (n : Int) :
    (jin fl).fn fuel (d + 1) (go% ErrEqual) sp [.nil, .int n] = .ok [.bool (errEqual none n)] := rfl
@[go_run] theorem run_errNullPath : (jin fl).fn fuel (d + 1) (go% errNullPath) sp [] = .ok [.err .nullPath] := rfl
@[go_run] theorem run_errObjectExpected :
    (jin fl).fn fuel (d + 1) (go% errObjectExpected) sp [] = .ok [.err .objectExpected] := rfl
@[go_run] theorem run_errArrayExpected :
    (jin fl).fn fuel (d + 1) (go% errArrayExpected) sp [] = .ok [.err .arrayExpected] := rfl
@[go_run] theorem run_errNullKey : (jin fl).fn fuel (d + 1) (go% errNullKey) sp [] = .ok [.err .nullKey] := rfl
@[go_run] theorem run_errEmpty : (jin fl).fn fuel (d + 1) (go% errEmpty) sp [] = .ok [.err .empty] := rfl
@[go_run] theorem run_errKeyAlreadyExist (b : Bytes) :
    (jin fl).fn fuel (d + 1) (go% errKeyAlreadyExist) sp [.bytes b] = .ok [.err (.keyAlreadyExist b)] := rfl
@[go_run] theorem run_errIntegerParse (b : Bytes) :
    (jin fl).fn fuel (d + 1) (go% errIntegerParse) sp [.bytes b] = .ok [.err (.integerParse b)] := rfl
@[go_run] theorem run_errFloatParse (b : Bytes) :
    (jin fl).fn fuel (d + 1) (go% errFloatParse) sp [.bytes b] = .ok [.err (.floatParse b)] := rfl
@[go_run] theorem run_errBoolParse (b : Bytes) :
    (jin fl).fn fuel (d + 1) (go% errBoolParse) sp [.bytes b] = .ok [.err (.boolParse b)] := rfl
@[go_run] theorem run_errStringArrayParse (b : Bytes) :
    (jin fl).fn fuel (d + 1) (go% errStringArrayParse) sp [.bytes b] = .ok [.err (.stringArrayParse b)] := rfl
@[go_run] theorem run_errIntegerArrayParse (b : Bytes) :
    (jin fl).fn fuel (d + 1) (go% errIntegerArrayParse) sp [.bytes b] = .ok [.err (.integerArrayParse b)] := rfl
@[go_run] theorem run_errFloatArrayParse (b : Bytes) :
    (jin fl).fn fuel (d + 1) (go% errFloatArrayParse) sp [.bytes b] = .ok [.err (.floatArrayParse b)] := rfl
@[go_run] theorem run_errBoolArrayParse (b : Bytes) :
    (jin fl).fn fuel (d + 1) (go% errBoolArrayParse) sp [.bytes b] = .ok [.err (.boolArrayParse b)] := rfl
@[go_run] theorem const_keyNotFound : (ctx fl fuel d).const (go% ErrCodeKeyNotFound) = some (.int codeKeyNotFound) := rfl

/-! ### replace, createTabs, stripQuotes -/

@[go_run] theorem run_replace (json new : Bytes) (start stop : Int) :
    (jin fl).fn fuel (d + 1) (go% replace) sp [.bytes json, .bytes new, .int start, .int stop] =
      (outR (replace json new start stop)).bind fun b => .ok [.bytes b] := by
  rw [fn_run (g := Src.replace) rfl]
  rw [replace]
  by_cases h1 : 0 ≤ start ∧ start ≤ json.length
  · by_cases h2 : 0 ≤ stop ∧ stop ≤ json.length
    · have hc : ¬ ((json.length : Int) - stop + start + new.length < 0) := by omega
      have e1 : slice json 0 start = .ok (json.take start.toNat) := by
        rw [slice, if_pos ⟨by omega, by omega, by omega⟩]; simp
      have e2 : slice json stop json.length = .ok (json.drop stop.toNat) := by
        rw [slice, if_pos ⟨by omega, by omega, by omega⟩, Int.toNat_natCast, List.take_of_length_le (by simp)]
      run_go [Func.run, Src.replace, bindParams, hc, e1, e2]
    · have e1 : slice json 0 start = .ok (json.take start.toNat) := by
        rw [slice, if_pos ⟨by omega, by omega, by omega⟩]; simp
      have e2 : slice json stop json.length = .panic := by rw [slice, if_neg (by omega)]
      by_cases hc : ((json.length : Int) - stop + start + new.length < 0)
      · run_go [Func.run, Src.replace, bindParams, hc, e1, e2]
      · run_go [Func.run, Src.replace, bindParams, hc, e1, e2]
  · have e1 : slice json 0 start = .panic := by rw [slice, if_neg (by omega)]
    by_cases hc : ((json.length : Int) - stop + start + new.length < 0)
    · run_go [Func.run, Src.replace, bindParams, hc, e1]
    · run_go [Func.run, Src.replace, bindParams, hc, e1]

@[go_run] theorem run_stripQuotes (s : Bytes) :
    (jin fl).fn fuel (d + 1) (go% stripQuotes) sp [.bytes s] = .ok [.bytes (stripQuotes s)] := by
  rw [fn_run (g := Src.stripQuotes) rfl]
  match s with
  | [] => rfl
  | [c] => rfl
  | c :: c' :: t =>
    have h : (1 : Int) < ((c :: c' :: t).length : Nat) := by simp; omega
    have e : slice (c :: c' :: t) 1 (((c :: c' :: t).length : Int) - 1) = .ok ((c' :: t).dropLast) := by
      rw [slice, if_pos ⟨by omega, by omega, by omega⟩, List.dropLast_eq_take]
      congr 2
      simp
    have e2 : elem (c :: c' :: t) (((c :: c' :: t).length : Int) - 1) = .ok ((c :: c' :: t).getLast (by simp)) := by
      rw [elem_last, List.getLast?_eq_some_getLast (by simp)]; rfl
    cases h1 : c == 34 <;> cases h2 : (c :: c' :: t).getLast (by simp) == 34 <;>
      run_go [Func.run, Src.stripQuotes, bindParams, h, h1, h2, e, e2, List.getElem?_cons_zero] <;>
      simp_all [stripQuotes, List.getLast?_eq_some_getLast]

@[go_run] theorem run_isBool (s : Bytes) :
    (jin fl).fn fuel (d + 1) (go% isBool) sp [.bytes s] = .ok [.bool (isBool s)] := by
  rw [fn_run (g := Src.isBool) rfl]
  run_go [Func.run, Src.isBool, bindParams, isBool]
  rfl

@[go_run] theorem run_isInt (s : Bytes) :
    (jin fl).fn fuel (d + 2) (go% isInt) sp [.bytes s] = .ok [.bool (isInt s)] := by
  rw [fn_run (g := Src.isInt) rfl]
  cases h : parseIntBits 32 s <;>
    run_go [Func.run, Src.isInt, bindParams, isInt, h, orErr, Option.map_some, Option.map_none, Option.isSome_some, Option.isSome_none]

@[go_run] theorem run_isFloat (s : Bytes) :
    (jin fl).fn fuel (d + 2) (go% isFloat) sp [.bytes s] = .ok [.bool (fl.parse s).isSome] := by
  rw [fn_run (g := Src.isFloat) rfl]
  cases h : fl.parse s <;>
    run_go [Func.run, Src.isFloat, bindParams, h, orErr, Option.map_some, Option.map_none, Option.isSome_some, Option.isSome_none]

@[go_run] theorem run_formatType (s : Bytes) :
    (jin fl).fn fuel (d + 3) (go% formatType) sp [.bytes s] = .ok [.bytes (formatType (fun s => (fl.parse s).isSome) s)] := by
  rw [fn_run (g := Src.formatType) rfl]
  match s with
  | [] => rfl
  | c :: t =>
    have h0 : ((c :: t) == ([] : Bytes)) = false := rfl
    obtain ⟨e, he⟩ : ∃ e, (c :: t).getLast? = some e := ⟨_, List.getLast?_eq_some_getLast (by simp)⟩
    have e2 := elem_last (c :: t)
    rw [he] at e2
    have hl : ((c :: t).length == 0) = false := rfl
    have hq : [(34 : UInt8)] ++ (c :: t) ++ [34] = quote (c :: t) := rfl
    have h1' : (1 : Int) < ((c :: t).length : Nat) ↔ (c :: t).length > 1 := by omega
    have hb : bNull = [110, 117, 108, 108] := rfl
    cases h1 : isBool (c :: t)
    rotate_left
    · run_go [Func.run, Src.formatType, bindParams, h1, hl, formatType]
    cases h2 : isInt (c :: t)
    rotate_left
    · cases h3 : c == 48 <;> by_cases h4 : (c :: t).length > 1 <;>
        run_go [Func.run, Src.formatType, bindParams, h1, hl, h2, h3, h1', h4, formatType, List.getElem?_cons_zero, quote,
          decide_true, decide_false]
    cases h3 : (fl.parse (c :: t)).isSome
    rotate_left
    · run_go [Func.run, Src.formatType, bindParams, h1, hl, h2, h3, formatType]
    cases h4 : (c :: t) == bNull
    rotate_left
    · run_go [Func.run, Src.formatType, bindParams, h1, hl, h2, h3, formatType, h4, ← hb]
    cases h5 : c == 34 <;> cases h6 : c == 91 <;> cases h7 : c == 123 <;> cases h8 : e == 34 <;> cases h9 : e == 93 <;>
      cases h10 : e == 125 <;>
      run_go [Func.run, Src.formatType, bindParams, h1, hl, h2, h3, formatType, h4, ← hb, e2, h5, h6, h7, h8, h9, h10, he, quote,
        List.getElem?_cons_zero, Option.some_beq_some]

/-! ### cleanValueString, cleanValue -/

theorem cvs_for1 (s : Bytes) (hs : s ≠ []) (hf : s.length < fuel) :
    exec (ctx fl fuel (d + 1)) fuel Src.cleanValueString.for1 ⟨(), [(go% lens, .int s.length), (go% start, .int 0), (0, .nil), (go% str, .bytes s)]⟩ =
      .norm ⟨(), [(go% lens, .int s.length), (go% start, .int (cvsUp s 0)), (0, .nil), (go% str, .bytes s)]⟩ := by
  run_go [Src.cleanValueString.for1]
  refine loop_while (fun i : Nat => (⟨(), [(go% lens, .int s.length), (go% start, .int i), (0, .nil), (go% str, .bytes s)]⟩ : St Unit))
    (fun i => (s[i]?.map fun c => space c && decide (i + 1 < s.length)).getD false) (· + 1) (cvsUp s) (fun i => i < s.length)
    (fun i => s.length - i) ?_ ?_ ?_ fuel 0 (by cases s <;> simp_all) (by omega)
  · intro i hi
    obtain ⟨c, hc⟩ := getElem?_of_lt hi
    have h : ((i : Int) < (s.length : Int) - 1) = (i + 1 < s.length) := by simp; omega
    cases h1 : space c <;> run_go [hc, h1, h, Option.map_some, Option.getD_some]
  · intro i hi hp
    refine ⟨_, by run_go [Src.cleanValueString.body1]; rfl, by run_go []; rfl, ?_, ?_⟩
    · obtain ⟨c, hc⟩ := getElem?_of_lt hi
      simp [hc] at hp
      exact hp.2
    · omega
  · intro i hi
    obtain ⟨c, hc⟩ := getElem?_of_lt hi
    rw [cvsUp]
    split <;> simp_all

theorem cvs_for2 (s : Bytes) (hs : s ≠ []) (hf : s.length < fuel) (st : Int) :
    exec (ctx fl fuel (d + 1)) fuel Src.cleanValueString.for2 ⟨(), [(go% «end», .int (s.length - 1)), (go% lens, .int s.length), (go% start, .int st), (0, .nil), (go% str, .bytes s)]⟩ =
      .norm ⟨(), [(go% «end», .int (cvsDown s (s.length - 1))), (go% lens, .int s.length), (go% start, .int st), (0, .nil), (go% str, .bytes s)]⟩ := by
  have hl : 0 < s.length := by cases s <;> simp_all
  run_go [Src.cleanValueString.for2, pred_nat hl]
  refine loop_while (fun i : Nat => (⟨(), [(go% «end», .int i), (go% lens, .int s.length), (go% start, .int st), (0, .nil), (go% str, .bytes s)]⟩ : St Unit))
    (fun i => (s[i]?.map fun c => space c && decide (1 < i)).getD false) (· - 1) (cvsDown s) (fun i => i < s.length)
    (fun i => i) ?_ ?_ ?_ fuel (s.length - 1) (by omega) (by omega)
  · intro i hi
    obtain ⟨c, hc⟩ := getElem?_of_lt hi
    have h : ((1 : Int) < (i : Int)) = (1 < i) := by simp; omega
    cases h1 : space c <;> run_go [hc, h1, h, Option.map_some, Option.getD_some]
  · intro i hi hp
    obtain ⟨c, hc⟩ := getElem?_of_lt hi
    simp [hc] at hp
    refine ⟨_, by run_go [Src.cleanValueString.body2]; rfl, by run_go [pred_nat (show 0 < i by omega)], ?_, ?_⟩
    · omega
    · omega
  · intro i hi
    obtain ⟨c, hc⟩ := getElem?_of_lt hi
    cases i with
    | zero => simp [cvsDown]
    | succ n => simp only [cvsDown, hc]; simp

@[go_run] theorem run_cleanValueString (s : Bytes) (hf : s.length < fuel) :
    (jin fl).fn fuel (d + 2) (go% cleanValueString) sp [.bytes s] =
      (outR (cleanValueString s)).bind fun b => .ok [.bytes b] := by
  rw [fn_run (g := Src.cleanValueString) rfl]
  by_cases hs : s = []
  · subst hs
    obtain ⟨n, rfl⟩ : ∃ n, fuel = n + 1 := ⟨fuel - 1, by omega⟩
    have e : exec (ctx fl (n + 1) (d + 1)) (n + 1) Src.cleanValueString.for1
        ⟨(), [(go% lens, .int 0), (go% start, .int 0), (0, .nil), (go% str, .bytes [])]⟩ = .panic := by
      run_go [Src.cleanValueString.for1]
      rfl
    run_go [Func.run, Src.cleanValueString, bindParams, List.length_nil, Int.natCast_zero, e]
    rfl
  · have e1 := cvs_for1 (fl := fl) (d := d) s hs hf
    have e2 := cvs_for2 (fl := fl) (d := d) s hs hf
    have hs' : (s.length == 0) = false := by cases s <;> simp_all
    simp only [cleanValueString, hs', unquoteSlice, idx_nat]
    generalize cvsUp s 0 = a at e1 ⊢
    generalize cvsDown s (s.length - 1) = b at e2 ⊢
    cases h1 : s[a]? with
    | none => run_go [Func.run, Src.cleanValueString, bindParams, e1, e2, h1, outOpt]
    | some x =>
      cases h2 : x == 34
      · run_go [Func.run, Src.cleanValueString, bindParams, e1, e2, h1, h2, outOpt]
        cases slice s a (b + 1) <;> rfl
      · cases h3 : s[b]? with
        | none => run_go [Func.run, Src.cleanValueString, bindParams, e1, e2, h1, h2, h3, outOpt]
        | some y =>
          cases h4 : y == 34
          · run_go [Func.run, Src.cleanValueString, bindParams, e1, e2, h1, h2, h3, h4, outOpt]
            cases slice s a (b + 1) <;> rfl
          · run_go [Func.run, Src.cleanValueString, bindParams, e1, e2, h1, h2, h3, h4, outOpt, Int.sub_add_cancel]
            cases slice s (a + 1) b <;> rfl

end

end Jin.Go
