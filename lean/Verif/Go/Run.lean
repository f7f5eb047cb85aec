import Verif.Go.Package
import Verif.Go.Attr
/-!
# Go.Run — running the text on symbols

Rules for `simp` that run a statement as far as the known facts decide its course, and the relation between a `for`
statement of the text and a loop of the model.
-/

namespace Jin.Go

open Lean Meta Simp

/-- The entries of an environment written out, and what follows them. -/
private partial def entries (e : Lean.Expr) : MetaM (Array (Lean.Expr × Lean.Expr × Lean.Expr) × Lean.Expr) := do
  let mut out := #[]
  let mut e ← whnfR e
  repeat
    let_expr List.cons _ hd tl := e | break
    let hd ← whnfR hd
    let_expr Prod.mk _ _ x v := hd | break
    out := out.push (x, v, e)
    e ← whnfR tl
  return (out, e)

private def number (e : Lean.Expr) : Option Nat := e.nat?

dsimproc [go_run] reduceEnvGet (Env.get _ _) := fun e => do
  let_expr Env.get x env := e | return .continue
  let some n := number x | return .continue
  let (es, rest) ← entries env
  for (y, v, _) in es do
    let some m := number y | return .continue
    if n == m then return .visit (mkApp2 (mkConst ``Option.some [.zero]) (mkConst ``Val) v)
  if rest.isAppOf ``List.nil then return .done (mkApp (mkConst ``Option.none [.zero]) (mkConst ``Val))
  return .continue

dsimproc [go_run] reduceEnvSet (Env.set _ _ _) := fun e => do
  let_expr Env.set x v env := e | return .continue
  let some n := number x | return .continue
  let (es, _) ← entries env
  let pair := mkApp2 (mkConst ``Prod [.zero, .zero]) (mkConst ``Nat) (mkConst ``Val)
  let cons (y u tl : Lean.Expr) := mkApp3 (mkConst ``List.cons [.zero]) pair
    (mkApp4 (mkConst ``Prod.mk [.zero, .zero]) (mkConst ``Nat) (mkConst ``Val) y u) tl
  for h : i in [0:es.size] do
    let (y, _, at_) := es[i]
    let some m := number y | return .continue
    if n == m then
      let_expr List.cons _ _ tl := at_ | return .continue
      let mut out := cons y v tl
      for j in [0:i] do
        let (y, u, _) := es[i - 1 - j]!
        out := cons y u out
      return .visit (mkApp2 (mkConst ``Option.some [.zero]) (mkApp (mkConst ``List [.zero]) pair) out)
  return .continue

dsimproc [go_run] reduceEnvLeave (Env.leave _) := fun e => do
  let_expr Env.leave env := e | return .continue
  let (es, _) ← entries env
  for (y, _, at_) in es do
    let some m := number y | return .continue
    if m == 0 then
      let_expr List.cons _ _ tl := at_ | return .continue
      return .visit tl
  return .continue

/-- Run what comes first; leave what comes next alone until it is known how the first thing ends. -/
private def stepFirst (panic : Lean.Expr) (e : Lean.Expr) : SimpM Simp.Step := do
  let .app (.app op x) f := e | return .continue
  let r ← simp x
  let r := { r with expr := ← whnfR r.expr }
  let e' := mkApp2 op r.expr f
  let r' : Simp.Result ← match r.proof? with
    | none => pure { expr := e' }
    | some h => pure { expr := e', proof? := some (← mkCongrFun (← mkCongrArg op h) f) }
  match r.expr.getAppFn with
  | .const c _ =>
    if c == ``R.ok || c == ``Res.norm then
      return .visit (← r'.mkEqTrans { expr := (mkApp f r.expr.appArg!).headBeta })
    else if c == ``R.panic || c == ``Res.panic then
      return .done (← r'.mkEqTrans { expr := panic })
    else if c == ``Res.brk || c == ``Res.cont || c == ``Res.jump || c == ``Res.ret then
      return .done (← r'.mkEqTrans { expr := r.expr })
    else return .done r'
  | _ => return .done r'

simproc ↓ [go_run] runBind (R.bind _ _) := fun e => do
  let_expr R.bind _ β _ _ := e | return .continue
  stepFirst (mkApp (mkConst ``R.panic) β) e
simproc ↓ [go_run] runOfR (Res.ofR _ _) := fun e => do
  let_expr Res.ofR W _ _ _ := e | return .continue
  stepFirst (mkApp (mkConst ``Res.panic) W) e
simproc ↓ [go_run] runAndThen (Res.andThen _ _) := fun e => do
  let_expr Res.andThen W _ _ := e | return .continue
  stepFirst (mkApp (mkConst ``Res.panic) W) e

/-- A loop is left as it is. -/
simproc ↓ [go_run] keepLoop (loopN _ _ _ _ _) := fun e => return .done { expr := e }

/-! ### Rules -/

section rules
variable {W α β : Type}

@[go_run] theorem leave_norm (s : St W) : (Res.norm s).leave = .norm s.leave := rfl
@[go_run] theorem leave_brk (s : St W) : (Res.brk s).leave = .brk s.leave := rfl
@[go_run] theorem leave_cont (s : St W) : (Res.cont s).leave = .cont s.leave := rfl
@[go_run] theorem leave_jump (l : Id) (s : St W) : (Res.jump l s).leave = .jump l s.leave := rfl
@[go_run] theorem leave_ret (w : W) (vs : List Val) : (Res.ret w vs).leave = .ret w vs := rfl
@[go_run] theorem leave_panic : (Res.panic : Res W).leave = .panic := rfl
@[go_run] theorem bind_def (x : R α) (f : α → R β) : x >>= f = R.bind x f := rfl
@[go_run] theorem pure_def (a : α) : (pure a : R α) = .ok a := rfl

@[go_run] theorem out_ok (a : α) (f : α → Out β) : (Out.ok a >>= f) = f a := rfl
@[go_run] theorem out_err (e : Err) (f : α → Out β) : (Out.err e >>= f) = .err e := rfl
@[go_run] theorem out_panic (f : α → Out β) : (Out.panic >>= f) = .panic := rfl
@[go_run] theorem out_pure (a : α) : (pure a : Out α) = .ok a := rfl

attribute [go_run] exec eval evals St.leave bindVars
  Kind.zeros beq_self_eq_true List.foldlM_cons List.foldlM_nil
  Bool.true_and Bool.and_true Bool.false_and Bool.and_false Bool.true_or Bool.or_true Bool.false_or Bool.or_false
  List.replicate_zero List.nil_append List.cons_append
  Bool.not_true Bool.not_false decide_eq_true_eq Bool.false_eq_true

@[go_run] theorem bytes?_bytes (b : Bytes) : Val.bytes? (.bytes b) = .ok b := rfl
@[go_run] theorem bytes?_nil : Val.bytes? .nil = .ok [] := rfl
@[go_run] theorem bool?_bool (b : Bool) : Val.bool? (.bool b) = .ok b := rfl
@[go_run] theorem int?_int (n : Int) : Val.int? (.int n) = .ok n := rfl
@[go_run] theorem int?_byte (c : UInt8) : Val.int? (.byte c) = .ok (c.toNat : Int) := rfl
@[go_run] theorem byte?_byte (c : UInt8) : Val.byte? (.byte c) = .ok c := rfl
@[go_run] theorem byte?_int (n : Int) : Val.byte? (.int n) = byteOf n := rfl
@[go_run] theorem eq_int (a b : Int) : Val.eq (.int a) (.int b) = .ok (a == b) := rfl
@[go_run] theorem eq_byte (a b : UInt8) : Val.eq (.byte a) (.byte b) = .ok (a == b) := rfl
@[go_run] theorem eq_byte_int (a : UInt8) (b : Int) : Val.eq (.byte a) (.int b) = (byteOf b).bind fun b => .ok (a == b) := rfl
@[go_run] theorem eq_bool (a b : Bool) : Val.eq (.bool a) (.bool b) = .ok (a == b) := rfl
@[go_run] theorem eq_bytes (a b : Bytes) : Val.eq (.bytes a) (.bytes b) = .ok (a == b) := rfl
@[go_run] theorem eq_nil : Val.eq .nil .nil = .ok true := rfl
@[go_run] theorem eq_nil_err (e : Err) : Val.eq .nil (.err e) = .ok false := rfl
@[go_run] theorem eq_err_nil (e : Err) : Val.eq (.err e) .nil = .ok false := rfl
@[go_run] theorem eq_bytes_nil (b : Bytes) : Val.eq (.bytes b) .nil = .ok false := rfl
@[go_run] theorem eq_strs_nil (b : List Bytes) : Val.eq (.strs b) .nil = .ok false := rfl
@[go_run] theorem run_lt (a b : Int) : BinOp.run .lt (.int a) (.int b) = .ok (.bool (decide (a < b))) := rfl
@[go_run] theorem run_le (a b : Int) : BinOp.run .le (.int a) (.int b) = .ok (.bool (decide (a ≤ b))) := rfl
@[go_run] theorem run_gt (a b : Int) : BinOp.run .gt (.int a) (.int b) = .ok (.bool (decide (b < a))) := rfl
@[go_run] theorem run_ge (a b : Int) : BinOp.run .ge (.int a) (.int b) = .ok (.bool (decide (b ≤ a))) := rfl
@[go_run] theorem run_add (a b : Int) : BinOp.run .add (.int a) (.int b) = .ok (.int (a + b)) := rfl
@[go_run] theorem run_add_byte (a : UInt8) (b : Int) : BinOp.run .add (.byte a) (.int b) = (byteOf b).bind fun b => .ok (.byte (a + b)) := rfl
@[go_run] theorem run_add_bytes (a b : Bytes) : BinOp.run .add (.bytes a) (.bytes b) = .ok (.bytes (a ++ b)) := rfl
@[go_run] theorem run_sub (a b : Int) : BinOp.run .sub (.int a) (.int b) = .ok (.int (a - b)) := rfl
@[go_run] theorem run_mul (a b : Int) : BinOp.run .mul (.int a) (.int b) = .ok (.int (a * b)) := rfl
@[go_run] theorem run_mod (a b : Int) : BinOp.run .mod (.int a) (.int b) = if b = 0 then .panic else .ok (.int (a.tmod b)) := rfl
@[go_run] theorem run_land (a b : Int) : BinOp.run .land (.int a) (.int b) = if 0 ≤ a ∧ 0 ≤ b then .ok (.int (a.toNat &&& b.toNat : Nat)) else .stuck := rfl
@[go_run] theorem run_eq (a b : Val) : BinOp.run .eq a b = (Val.eq a b).bind fun x => .ok (.bool x) := rfl
@[go_run] theorem run_ne (a b : Val) : BinOp.run .ne a b = (Val.eq a b).bind fun x => .ok (.bool (!x)) := rfl
@[go_run] theorem index_bytes (b : Bytes) (i : Val) : Val.index (.bytes b) i = i.int?.bind fun i => (elem b i).bind fun c => .ok (.byte c) := rfl
@[go_run] theorem len_bytes (b : Bytes) : Val.len (.bytes b) = .ok b.length := rfl
@[go_run] theorem index_strs (b : List Bytes) (i : Val) : Val.index (.strs b) i = i.int?.bind fun i => (elem b i).bind fun c => .ok (.bytes c) := rfl
@[go_run] theorem len_strs (b : List Bytes) : Val.len (.strs b) = .ok b.length := rfl
@[go_run] theorem index_ints (b : List Int) (i : Val) : Val.index (.ints b) i = i.int?.bind fun i => (elem b i).bind fun c => .ok (.int c) := rfl
@[go_run] theorem len_ints (b : List Int) : Val.len (.ints b) = .ok b.length := rfl
@[go_run] theorem index_bools (b : List Bool) (i : Val) : Val.index (.bools b) i = i.int?.bind fun i => (elem b i).bind fun c => .ok (.bool c) := rfl
@[go_run] theorem len_bools (b : List Bool) : Val.len (.bools b) = .ok b.length := rfl
@[go_run] theorem index_floats (b : List UInt64) (i : Val) : Val.index (.floats b) i = i.int?.bind fun i => (elem b i).bind fun c => .ok (.float c) := rfl
@[go_run] theorem len_floats (b : List UInt64) : Val.len (.floats b) = .ok b.length := rfl
@[go_run] theorem index_nil (i : Val) : Val.index .nil i = i.int?.bind fun _ => .panic := rfl
@[go_run] theorem len_nil : Val.len .nil = .ok 0 := rfl
@[go_run] theorem slice_bytes (b : Bytes) (lo hi : Int) : Val.slice (.bytes b) (.int lo) (.int hi) = (cut b lo hi).bind fun b => .ok (.bytes b) := rfl
@[go_run] theorem slice_strs (b : List Bytes) (lo hi : Int) : Val.slice (.strs b) (.int lo) (.int hi) = (cut b lo hi).bind fun b => .ok (.strs b) := rfl
@[go_run] theorem slice_nil (lo hi : Int) : Val.slice .nil (.int lo) (.int hi) = if lo = 0 ∧ hi = 0 then .ok .nil else .panic := rfl
@[go_run] theorem append_bytes (a : Bytes) (x : Val) : Val.append (.bytes a) x = x.byte?.bind fun c => .ok (.bytes (a ++ [c])) := rfl
@[go_run] theorem append_strs (a : List Bytes) (x : Bytes) : Val.append (.strs a) (.bytes x) = .ok (.strs (a ++ [x])) := rfl
@[go_run] theorem append_nil (x : Bytes) : Val.append .nil (.bytes x) = .ok (.strs [x]) := rfl
@[go_run] theorem append_ints (a : List Int) (x : Int) : Val.append (.ints a) (.int x) = .ok (.ints (a ++ [x])) := rfl
@[go_run] theorem append_bools (a : List Bool) (x : Bool) : Val.append (.bools a) (.bool x) = .ok (.bools (a ++ [x])) := rfl
@[go_run] theorem append_floats (a : List UInt64) (x : UInt64) : Val.append (.floats a) (.float x) = .ok (.floats (a ++ [x])) := rfl
@[go_run] theorem appendAll_bytes (a b : Bytes) : Val.appendAll (.bytes a) (.bytes b) = .ok (.bytes (a ++ b)) := rfl
@[go_run] theorem appendAll_bytes_nil (a : Bytes) : Val.appendAll (.bytes a) .nil = .ok (.bytes a) := rfl
@[go_run] theorem appendAll_strs (a b : List Bytes) : Val.appendAll (.strs a) (.strs b) = .ok (.strs (a ++ b)) := rfl
@[go_run] theorem store_bytes (b : Bytes) (i v : Val) : Val.store (.bytes b) i v = i.int?.bind fun i => v.byte?.bind fun c => (put b i c).bind fun b => .ok (.bytes b) := rfl
@[go_run] theorem store_strs (l : List Bytes) (i : Val) (b : Bytes) : Val.store (.strs l) i (.bytes b) = i.int?.bind fun i => (put l i b).bind fun b => .ok (.strs b) := rfl
@[go_run] theorem store_ints (l : List Int) (i : Val) (b : Int) : Val.store (.ints l) i (.int b) = i.int?.bind fun i => (put l i b).bind fun b => .ok (.ints b) := rfl
@[go_run] theorem store_bools (l : List Bool) (i : Val) (b : Bool) : Val.store (.bools l) i (.bool b) = i.int?.bind fun i => (put l i b).bind fun b => .ok (.bools b) := rfl
@[go_run] theorem copy_bytes (b c : Bytes) (i : Val) : Val.copy (.bytes b) i (.bytes c) = i.int?.bind fun i => (over b i c).bind fun b => .ok (.bytes b) := rfl
@[go_run] theorem copy_bytes_nil (b : Bytes) (i : Val) : Val.copy (.bytes b) i .nil = i.int?.bind fun i => (over b i []).bind fun b => .ok (.bytes b) := rfl
@[go_run] theorem copy_strs (b c : List Bytes) (i : Val) : Val.copy (.strs b) i (.strs c) = i.int?.bind fun i => (over b i c).bind fun b => .ok (.strs b) := rfl
@[go_run] theorem copy_ints (b c : List Int) (i : Val) : Val.copy (.ints b) i (.ints c) = i.int?.bind fun i => (over b i c).bind fun b => .ok (.ints b) := rfl
@[go_run] theorem items_nil : Val.items .nil = .ok [] := rfl
@[go_run] theorem items_bytes (b : Bytes) : Val.items (.bytes b) = .ok (b.mapIdx fun i c => (.int i, .byte c)) := rfl
@[go_run] theorem items_strs (l : List Bytes) : Val.items (.strs l) = .ok (l.mapIdx fun i c => (.int i, .bytes c)) := rfl
@[go_run] theorem one_one (v : Val) : one [v] = .ok v := rfl
@[go_run] theorem byteOf_9 : byteOf 9 = .ok 9 := rfl
@[go_run] theorem byteOf_10 : byteOf 10 = .ok 10 := rfl
@[go_run] theorem byteOf_13 : byteOf 13 = .ok 13 := rfl
@[go_run] theorem byteOf_32 : byteOf 32 = .ok 32 := rfl
@[go_run] theorem byteOf_34 : byteOf 34 = .ok 34 := rfl
@[go_run] theorem byteOf_44 : byteOf 44 = .ok 44 := rfl
@[go_run] theorem byteOf_48 : byteOf 48 = .ok 48 := rfl
@[go_run] theorem byteOf_58 : byteOf 58 = .ok 58 := rfl
@[go_run] theorem byteOf_91 : byteOf 91 = .ok 91 := rfl
@[go_run] theorem byteOf_92 : byteOf 92 = .ok 92 := rfl
@[go_run] theorem byteOf_93 : byteOf 93 = .ok 93 := rfl
@[go_run] theorem byteOf_123 : byteOf 123 = .ok 123 := rfl
@[go_run] theorem byteOf_125 : byteOf 125 = .ok 125 := rfl

end rules

open Lean.Parser.Tactic in
/-- Run the statements in the goal. -/
macro "run_go" "[" ts:simpLemma,* "]" : tactic =>
  `(tactic| simp only [go_run, ↓reduceIte, Nat.reduceBEq, Int.reduceNeg, Int.reduceLT, Int.reduceToNat, true_and, and_true, false_and, and_false, false_or, or_false, not_true, not_false_eq_true, $ts,*])

/-- What the functions of the package see when they run. -/
def ctx (fl : FloatLib UInt64) (fuel depth : Nat) : Ctx Unit :=
  (jin fl).ctx fuel depth fun _ _ => .stuck

theorem fn_run {fl : FloatLib UInt64} {f : Id} {g : Func} (h : (jin fl).funcs.find? (fun g => g.name == f) = some g)
    (fuel depth : Nat) (spread : Bool) (args : List Val) :
    (jin fl).fn fuel (depth + 1) f spread args =
      (g.run (ctx fl fuel depth) fuel spread args ()).bind fun r => .ok r.2 := by
  simp only [Prog.fn, Prog.fnIn, h]
  rfl

/-- A function that is not of the package. -/
theorem fn_lib {fl : FloatLib UInt64} {f : Id} (h : (jin fl).funcs.find? (fun g => g.name == f) = none)
    (fuel depth : Nat) (spread : Bool) (args : List Val) : (jin fl).fn fuel (depth + 1) f spread args = lib fl f args := by
  simp only [Prog.fn, Prog.fnIn, h]
  show ((lib fl f args).bind _).bind _ = _
  cases lib fl f args <;> rfl

/-! ### Loops -/

section loops
variable {W σ ρ : Type}

/-- A round that another one may follow. -/
def Res.goes : Res W → Option (St W)
  | .norm s => some s
  | .cont s => some s
  | _ => none

/-- A `return` or a panic. -/
def Res.ends : Res W → Bool
  | .ret _ _ => true
  | .panic => true
  | _ => false

/-- A round of the text ends as the round of the model says.  `E i s` is the state of the text that belongs to the index
`i` and the state `s` of the model. -/
def Sim (E : Nat → σ → St W) (conv : ρ → Res W) (P : Nat → σ → Prop) (Q : σ → Prop) (i : Nat) (r : Res W) :
    Ctl σ ρ → Prop
  | .next s => r.goes = some (E i s) ∧ P (i + 1) s
  | .goto j s => r.goes = some (E (max i j) s) ∧ P (max i j + 1) s
  | .brk s => r = .brk (E i s) ∧ Q s
  | .ret x => r = conv x

/-- The same for a loop. -/
def Done (E : Nat → σ → St W) (conv : ρ → Res W) (Q : σ → Prop) (r : Res W) : LoopRes σ ρ → Prop
  | .done s => (∃ i, r = .norm (E i s)) ∧ Q s
  | .ret x => r = conv x

theorem loopN_goes {c : St W → R Bool} {post body : St W → Res W} {n : Nat} {s t : St W}
    (hc : c s = .ok true) (hb : (body s).goes = some t) :
    loopN c post body (n + 1) s = (post t).andThen (loopN c post body n) := by
  simp only [loopN, hc, Res.ofR, if_true]
  cases h : body s <;> simp only [h, Res.goes, reduceCtorEq, Option.some.injEq] at hb <;> subst hb <;> rfl

theorem loopN_end {c : St W → R Bool} {post body : St W → Res W} {n : Nat} {s : St W}
    (hc : c s = .ok false) : loopN c post body (n + 1) s = .norm s := by
  simp [loopN, hc, Res.ofR]

theorem loopN_brk {c : St W → R Bool} {post body : St W → Res W} {n : Nat} {s t : St W}
    (hc : c s = .ok true) (hb : body s = .brk t) : loopN c post body (n + 1) s = .norm t := by
  simp [loopN, hc, Res.ofR, hb]

theorem loopN_ends {c : St W → R Bool} {post body : St W → Res W} {n : Nat} {s : St W}
    (hc : c s = .ok true) (hb : (body s).ends = true) : loopN c post body (n + 1) s = body s := by
  simp only [loopN, hc, Res.ofR, if_true]
  cases h : body s <;> simp_all [Res.ends]

/-- `for i := …; i < hi; i++ { … }` -/
theorem loop_forUp {c : St W → R Bool} {post body : St W → Res W} {hi : Nat} {b : Nat → σ → Ctl σ ρ}
    (E : Nat → σ → St W) (conv : ρ → Res W) (P : Nat → σ → Prop) (Q : σ → Prop)
    (hc : ∀ i s, c (E i s) = .ok (decide (i < hi)))
    (hp : ∀ i s, post (E i s) = .norm (E (i + 1) s))
    (hconv : ∀ r, (conv r).ends = true)
    (hQ : ∀ i s, P i s → Q s)
    (hb : ∀ i s, i < hi → P i s → Sim E conv P Q i (body (E i s)) (b i s)) :
    ∀ n i s, P i s → hi - i < n → Done E conv Q (loopN c post body n (E i s)) (forUp hi b i s) := by
  intro n
  induction n with
  | zero => intro i s _ h; omega
  | succ n ih =>
    intro i s hP hn
    rw [forUp]
    by_cases hi' : i < hi
    · have hb := hb i s hi' hP
      have hct : c (E i s) = .ok true := by rw [hc]; simp [hi']
      rw [if_pos hi']
      cases hx : b i s with
      | next s' =>
        rw [hx] at hb
        rw [loopN_goes hct hb.1, hp]
        exact ih _ _ hb.2 (by omega)
      | goto j s' =>
        rw [hx] at hb
        rw [loopN_goes hct hb.1, hp]
        exact ih _ _ hb.2 (by omega)
      | brk s' =>
        rw [hx] at hb
        exact ⟨⟨i, loopN_brk hct hb.1⟩, hb.2⟩
      | ret r =>
        rw [hx] at hb
        have hb : body (E i s) = conv r := hb
        show loopN c post body (n + 1) (E i s) = conv r
        rw [loopN_ends hct (by rw [hb]; exact hconv r), hb]
    · rw [if_neg hi']
      have hct : c (E i s) = .ok false := by rw [hc]; simp [hi']
      exact ⟨⟨i, loopN_end hct⟩, hQ _ _ hP⟩

/-- How a loop in a block of its own ends. -/
def after (F : σ → St W) (conv : ρ → Res W) : LoopRes σ ρ → Res W
  | .done s => .norm (F s)
  | .ret r => conv r

theorem Res.leave_of_ends {r : Res W} (h : r.ends = true) : r.leave = r := by
  cases r <;> simp_all [Res.ends, Res.leave]

theorem Done.leave {E : Nat → σ → St W} {conv : ρ → Res W} {Q : σ → Prop} {r : Res W} {x : LoopRes σ ρ}
    (h : Done E conv Q r x) (F : σ → St W) (hF : ∀ i s, (E i s).leave = F s) (hconv : ∀ r, (conv r).ends = true) :
    r.leave = after F conv x := by
  cases x with
  | done s => obtain ⟨⟨i, h⟩, -⟩ := h; rw [h]; simp only [Res.leave, hF, after]
  | ret y => have h : r = conv y := h; rw [h, Res.leave_of_ends (hconv y)]; rfl

theorem Done.inv {E : Nat → σ → St W} {conv : ρ → Res W} {Q : σ → Prop} {r : Res W} {x : LoopRes σ ρ}
    (h : Done E conv Q r x) {s : σ} (hs : x = .done s) : Q s := by
  subst hs; exact h.2

/-- `for space(json[i]) { … i++ }` -/
theorem loop_skip {c : St W → R Bool} {post body : St W → Res W} {json : Bytes} (E : Nat → St W)
    (hc : ∀ i, c (E i) = match json[i]? with | some ch => .ok (space ch) | none => .panic)
    (hb : ∀ i, i < json.length → (body (E i)).goes = some (E (i + 1)))
    (hp : ∀ i, post (E i) = .norm (E i)) :
    ∀ n i, json.length - i < n → loopN c post body n (E i) =
      match skipSpaces json i with | some j => .norm (E j) | none => .panic := by
  intro n
  induction n with
  | zero => intro i h; omega
  | succ n ih =>
    intro i hn
    have hs : skipSpaces json i = match json[i]? with
        | none => none
        | some c => if space c then skipSpaces json (i + 1) else some i := by
      rw [skipSpaces]; split <;> simp_all
    rw [hs]
    cases h : json[i]? with
    | none => simp only [loopN, hc, h, Res.ofR]
    | some ch =>
      have hi : i < json.length := (List.getElem?_eq_some_iff.1 h).1
      cases hs : space ch with
      | true =>
        rw [loopN_goes (by rw [hc, h]; simp [hs]) (hb i hi), hp]
        simp only [Res.andThen, if_true, hs]
        exact ih (i + 1) (by omega)
      | false =>
        rw [loopN_end (by rw [hc, h]; simp [hs])]
        simp [hs]

/-- How a loop ends when a round ends in this way, if no other round follows. -/
def Res.stops : Res W → Option (Res W)
  | .brk s => some (.norm s.leave)
  | .jump l s => some (.jump l s.leave)
  | _ => none

theorem loopN_stops {c : St W → R Bool} {post body : St W → Res W} {n : Nat} {s : St W} {r : Res W}
    (hc : c s = .ok true) (hb : (body s).stops = some r) : (loopN c post body (n + 1) s).leave = r := by
  simp only [loopN, hc, Res.ofR, if_true]
  cases h : body s <;> simp only [h, Res.stops, reduceCtorEq, Option.some.injEq] at hb <;> subst hb <;> rfl

/-- `for n := i - 1; n > -1; n-- { if json[n] != 92 { if (i-n)&1 != 0 { … } else { … } } }` -/
theorem loop_quote {c : St W → R Bool} {post body : St W → Res W} {json : Bytes} {i : Nat} (E : Int → St W)
    (A B C : Res W)
    (hc : ∀ n : Int, c (E n) = .ok (decide (-1 < n)))
    (hp : ∀ n : Int, post (E n) = .norm (E (n - 1)))
    (hl : ∀ n : Int, (Res.norm (E n)).leave = C)
    (hb : ∀ (n : Nat) (ch : UInt8), n < i → json[n]? = some ch →
      if ch == 92 then (body (E n)).goes = some (E n)
      else if (i - n) % 2 != 0 then (body (E n)).stops = some A else (body (E n)).stops = some B)
    (hi : i ≤ json.length) :
    ∀ k m, m ≤ i → m < k → (loopN c post body k (E ((m : Int) - 1))).leave =
      match quoteScan json i m with | .real => A | .escaped => B | .off => C := by
  intro k
  induction k with
  | zero => intro m _ h; omega
  | succ k ih =>
    intro m hm hk
    cases m with
    | zero =>
      rw [loopN_end (by rw [hc]; simp), hl]
      rfl
    | succ m =>
      have hlt : m < json.length := by omega
      have hb := hb m json[m] (by omega) (List.getElem?_eq_getElem hlt)
      have e : ((m + 1 : Nat) : Int) - 1 = (m : Int) := by omega
      have hct : c (E (m : Int)) = .ok true := by rw [hc]; simp; omega
      rw [quoteScan, List.getElem?_eq_getElem hlt]
      rw [e]
      by_cases h : json[m] = 92
      · rw [h] at hb
        simp only [beq_self_eq_true, if_true] at hb
        rw [loopN_goes hct hb, hp]
        simp only [Res.andThen]
        rw [ih m (by omega) (by omega)]
        simp [h]
      · have hx : (json[m] == 92) = false := by simp [h]
        rw [hx] at hb
        simp only [Bool.false_eq_true, if_false] at hb
        by_cases ho : (i - m) % 2 = 0
        · rw [ho] at hb
          simp only [bne_self_eq_false, Bool.false_eq_true, if_false] at hb
          rw [loopN_stops hct hb]
          simp [h, ho]
        · have hx : ((i - m) % 2 != 0) = true := bne_iff_ne.2 ho
          have hy : (some json[m] != some 92) = true := by simp [h]
          rw [hx, if_pos rfl] at hb
          rw [loopN_stops hct hb, hx, hy, if_pos rfl, if_pos rfl]

end loops

attribute [go_run] Res.goes Res.ends Res.stops

/-! ### Indices -/

def ofOpt {α : Type} : Option α → R α
  | some a => .ok a
  | none => .panic

@[go_run] theorem ofOpt_some {α : Type} (a : α) : ofOpt (some a) = .ok a := rfl
@[go_run] theorem ofOpt_none {α : Type} : ofOpt (none : Option α) = .panic := rfl

@[go_run] theorem elem_nat {α : Type} (l : List α) (i : Nat) : elem l (i : Int) = ofOpt l[i]? := by
  simp only [elem]
  rw [if_neg (by omega)]
  simp only [Int.toNat_natCast]
  cases l[i]? <;> rfl

@[go_run] theorem elem_succ {α : Type} (l : List α) (i : Nat) : elem l ((i : Int) + 1) = ofOpt l[i + 1]? :=
  elem_nat l (i + 1)

@[go_run] theorem elem_zero {α : Type} (l : List α) : elem l 0 = ofOpt l[0]? := elem_nat l 0

/-! ### Small functions -/

theorem run_space (fl : FloatLib UInt64) (fuel depth : Nat) (sp : Bool) (c : UInt8) :
    (jin fl).fn fuel (depth + 1) (go% space) sp [.byte c] = .ok [.bool (space c)] := by
  rw [fn_run (g := Src.space) rfl]
  run_go [Func.run, Src.space, bindParams, space]
  cases h1 : c == 32 <;> cases h2 : c == 9 <;> cases h3 : c == 10 <;> cases h4 : c == 13 <;>
    run_go [h1, h2, h3, h4]

end Jin.Go
