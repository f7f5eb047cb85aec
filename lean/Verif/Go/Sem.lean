import Verif.Go.Syntax
/-!
# Go.Sem — running the syntax trees

Slices and strings are values; integers are unbounded.  A run ends with `ok`, a run-time `panic`, or `stuck`,
which is a type error or more iterations or nested calls than the bounds given; the theorems about the functions of the
package show that they never get there.
-/

namespace Jin.Go

inductive R (α : Type) where
  | ok (a : α)
  | panic
  | stuck
deriving DecidableEq, Repr

protected def R.bind {α β : Type} (x : R α) (f : α → R β) : R β :=
  match x with
  | .ok a => f a
  | .panic => .panic
  | .stuck => .stuck

instance : Monad R where
  pure := .ok
  bind := R.bind

/-- The bytes of a `[]byte` or `string`. -/
def Val.bytes? : Val → R Bytes
  | .bytes b => .ok b
  | .nil => .ok []
  | _ => .stuck

def Val.bool? : Val → R Bool
  | .bool b => .ok b
  | _ => .stuck

/-- An integer, or a byte used as an index. -/
def Val.int? : Val → R Int
  | .int n => .ok n
  | .byte c => .ok c.toNat
  | _ => .stuck

/-- An untyped constant where a byte is expected. -/
def byteOf (n : Int) : R UInt8 := if 0 ≤ n ∧ n < 256 then .ok (UInt8.ofNat n.toNat) else .stuck

def Val.byte? : Val → R UInt8
  | .byte c => .ok c
  | .int n => byteOf n
  | _ => .stuck

def Val.eq : Val → Val → R Bool
  | .int a, .int b => .ok (a == b)
  | .byte a, .byte b => .ok (a == b)
  | .byte a, .int b => (byteOf b).bind fun b => .ok (a == b)
  | .int a, .byte b => (byteOf a).bind fun a => .ok (a == b)
  | .bool a, .bool b => .ok (a == b)
  | .bytes a, .bytes b => .ok (a == b)
  | .nil, .nil => .ok true
  | .nil, .err _ => .ok false
  | .err _, .nil => .ok false
  | .bytes _, .nil => .ok false
  | .strs _, .nil => .ok false
  | .ints _, .nil => .ok false
  | .bools _, .nil => .ok false
  | .floats _, .nil => .ok false
  | .map _, .nil => .ok false
  | .ptrs l, .nil => .ok l.isEmpty
  | _, _ => .stuck

def cmp (f : Int → Int → Bool) : Val → Val → R Val
  | .int a, .int b => .ok (.bool (f a b))
  | _, _ => .stuck

def BinOp.run : BinOp → Val → Val → R Val
  | .add, .int a, .int b => .ok (.int (a + b))
  | .add, .byte a, .int b => (byteOf b).bind fun b => .ok (.byte (a + b))
  | .add, .bytes a, .bytes b => .ok (.bytes (a ++ b))
  | .sub, .int a, .int b => .ok (.int (a - b))
  | .mul, .int a, .int b => .ok (.int (a * b))
  | .mod, .int a, .int b => if b = 0 then .panic else .ok (.int (a.tmod b))
  | .land, .int a, .int b => if 0 ≤ a ∧ 0 ≤ b then .ok (.int (a.toNat &&& b.toNat : Nat)) else .stuck
  | .eq, a, b => (Val.eq a b).bind fun x => .ok (.bool x)
  | .ne, a, b => (Val.eq a b).bind fun x => .ok (.bool (!x))
  | .lt, a, b => cmp (fun x y => decide (x < y)) a b
  | .le, a, b => cmp (fun x y => decide (x ≤ y)) a b
  | .gt, a, b => cmp (fun x y => decide (y < x)) a b
  | .ge, a, b => cmp (fun x y => decide (y ≤ x)) a b
  | _, _, _ => .stuck

/-- The element at an index, or a panic. -/
def elem {α : Type} (l : List α) (i : Int) : R α :=
  if i < 0 then .panic
  else match l[i.toNat]? with
    | some a => .ok a
    | none => .panic

def Val.index (a i : Val) : R Val :=
  i.int?.bind fun i =>
    match a with
    | .bytes b => (elem b i).bind fun c => .ok (.byte c)
    | .strs l => (elem l i).bind fun b => .ok (.bytes b)
    | .ints l => (elem l i).bind fun n => .ok (.int n)
    | .bools l => (elem l i).bind fun b => .ok (.bool b)
    | .floats l => (elem l i).bind fun x => .ok (.float x)
    | .ptrs l => (elem l i).bind fun p => .ok (.ptr p)
    | .nil => .panic
    | _ => .stuck

/-- `l[lo:hi]`, for `hi` up to the length. -/
def cut {α : Type} (l : List α) (lo hi : Int) : R (List α) :=
  if 0 ≤ lo ∧ lo ≤ hi ∧ hi ≤ l.length then .ok ((l.drop lo.toNat).take (hi.toNat - lo.toNat)) else .panic

def Val.slice : Val → Val → Val → R Val
  | .bytes b, .int lo, .int hi => (cut b lo hi).bind fun b => .ok (.bytes b)
  | .strs l, .int lo, .int hi => (cut l lo hi).bind fun l => .ok (.strs l)
  | .nil, .int lo, .int hi => if lo = 0 ∧ hi = 0 then .ok .nil else .panic
  | _, _, _ => .stuck

def Val.len : Val → R Int
  | .nil => .ok 0
  | .bytes b => .ok b.length
  | .strs l => .ok l.length
  | .ints l => .ok l.length
  | .bools l => .ok l.length
  | .floats l => .ok l.length
  | .ptrs l => .ok l.length
  | _ => .stuck

def Val.append : Val → Val → R Val
  | .bytes a, x => x.byte?.bind fun c => .ok (.bytes (a ++ [c]))
  | .strs l, .bytes b => .ok (.strs (l ++ [b]))
  | .nil, .bytes b => .ok (.strs [b])
  | .ints l, .int n => .ok (.ints (l ++ [n]))
  | .bools l, .bool b => .ok (.bools (l ++ [b]))
  | .floats l, .float x => .ok (.floats (l ++ [x]))
  | .ptrs l, .ptr p => .ok (.ptrs (l ++ [p]))
  | _, _ => .stuck

def Val.appendAll : Val → Val → R Val
  | .bytes a, .bytes b => .ok (.bytes (a ++ b))
  | .bytes a, .nil => .ok (.bytes a)
  | .strs a, .strs b => .ok (.strs (a ++ b))
  | _, _ => .stuck

/-- `n` zero values. -/
def Kind.zeros (n : Nat) : Kind → Val
  | .bytes => .bytes (List.replicate n 0)
  | .strs => .strs (List.replicate n [])
  | .ints => .ints (List.replicate n 0)
  | .bools => .bools (List.replicate n false)
  | .floats => .floats (List.replicate n 0)
  | .ptrs => .ptrs (List.replicate n 0)

/-- `l[i] = a` -/
def put {α : Type} (l : List α) (i : Int) (a : α) : R (List α) :=
  if 0 ≤ i ∧ i < l.length then .ok (l.set i.toNat a) else .panic

def Val.storeAt (a i v : Val) : R Val :=
  i.int?.bind fun i =>
    match a, v with
    | .bytes b, v => v.byte?.bind fun c => (put b i c).bind fun b => .ok (.bytes b)
    | .strs l, .bytes b => (put l i b).bind fun l => .ok (.strs l)
    | .ints l, .int n => (put l i n).bind fun l => .ok (.ints l)
    | .bools l, .bool b => (put l i b).bind fun l => .ok (.bools l)
    | .ptrs l, .ptr p => (put l i p).bind fun l => .ok (.ptrs l)
    | .nil, _ => .panic
    | _, _ => .stuck

/-- `a[i] = v`; an entry of a map is replaced, or added behind the others. -/
def Val.store (a i v : Val) : R Val :=
  match a, i, v with
  | .map m, .bytes k, .bytes b =>
    .ok (.map (GoMap.set m k b))
  | a, i, v => a.storeAt i v

/-- `copy(l[i:], m)` -/
def over {α : Type} (l : List α) (i : Int) (m : List α) : R (List α) :=
  if 0 ≤ i ∧ i ≤ l.length then
    .ok (l.take i.toNat ++ m.take (l.length - i.toNat) ++ l.drop (i.toNat + min m.length (l.length - i.toNat)))
  else .panic

def Val.copy (a i v : Val) : R Val :=
  i.int?.bind fun i =>
    match a, v with
    | .bytes b, .bytes c => (over b i c).bind fun b => .ok (.bytes b)
    | .bytes b, .nil => (over b i []).bind fun b => .ok (.bytes b)
    | .strs l, .strs m => (over l i m).bind fun l => .ok (.strs l)
    | .ints l, .ints m => (over l i m).bind fun l => .ok (.ints l)
    | _, _ => .stuck

/-- The pairs a `range` runs over. -/
def Val.items : Val → R (List (Val × Val))
  | .nil => .ok []
  | .bytes b => .ok (b.mapIdx fun i c => (.int i, .byte c))
  | .strs l => .ok (l.mapIdx fun i c => (.int i, .bytes c))
  | .ints l => .ok (l.mapIdx fun i c => (.int i, .int c))
  | .bools l => .ok (l.mapIdx fun i c => (.int i, .bool c))
  | .floats l => .ok (l.mapIdx fun i c => (.int i, .float c))
  | .ptrs l => .ok (l.mapIdx fun i c => (.int i, .ptr c))
  | .map m => .ok (m.map fun e => (.bytes e.1, .bytes e.2))
  | _ => .stuck

/-- Variables, the latest first.  An entry with the name 0 marks the beginning of a block. -/
abbrev Env := List (Id × Val)

def Env.get (x : Id) : Env → Option Val
  | [] => none
  | (y, v) :: r => bif Nat.beq x y then some v else Env.get x r

/-- Assign to the latest variable of a name; the name 0 is `_`. -/
def Env.set (x : Id) (v : Val) : Env → Option Env
  | [] => none
  | (y, u) :: r =>
    bif Nat.beq x y then some ((y, v) :: r)
    else match Env.set x v r with
      | some r => some ((y, u) :: r)
      | none => none

/-- Back to the beginning of the block. -/
def Env.leave : Env → Env
  | [] => []
  | (y, _) :: r => bif Nat.beq y 0 then r else Env.leave r

/-- The variable that holds the memory of nodes: `heap`. -/
def heapId : Id := 1751474544

/-- The memory of nodes. -/
def Env.heap (env : Env) : R (List NodeRec) :=
  match env.get heapId with
  | some (.heap h) => .ok h
  | _ => .stuck

/-- The node at an address. -/
def node (h : List NodeRec) (p : Nat) : R NodeRec :=
  match h[p]? with
  | some r => .ok r
  | none => .stuck

def Field.get (r : NodeRec) : Field → Val
  | .label => .bytes r.label
  | .value => .bytes r.value
  | .up => match r.up with
    | some p => .ptr p
    | none => .nil
  | .down => .ptrs r.down

def Field.set (r : NodeRec) : Field → Val → R NodeRec
  | .label, .bytes b => .ok { r with label := b }
  | .value, .bytes b => .ok { r with value := b }
  | .value, .nil => .ok { r with value := [] }
  | .up, .ptr p => .ok { r with up := some p }
  | .up, .nil => .ok { r with up := none }
  | .down, .ptrs l => .ok { r with down := l }
  | _, _ => .stuck

/-- `a.f` -/
def Val.field (env : Env) (f : Field) : Val → R Val
  | .ptr p => env.heap.bind fun h => (node h p).bind fun r => .ok (f.get r)
  | .nil => .panic
  | _ => .stuck

/-- The memory after `a.f = v`. -/
def Val.setField (a : Val) (env : Env) (f : Field) (v : Val) : R Val :=
  match a with
  | .ptr p => env.heap.bind fun h => (node h p).bind fun r => (f.set r v).bind fun r => .ok (.heap (h.set p r))
  | .nil => .panic
  | _ => .stuck

/-- The node `&node{label: l, value: v, up: u}`. -/
def newNode (l v u : Val) : R NodeRec :=
  (Field.label.set ⟨[], [], none, []⟩ l).bind fun r => (Field.value.set r v).bind fun r => Field.up.set r u

/-- What a function body refers to: constants, other functions, and the function it has as a parameter, which may
change the state `w` of the caller; `fnIn` calls a function with a function as parameter. -/
structure Ctx (W : Type) where
  const : Id → Option Val
  fn : Id → Bool → List Val → R (List Val)
  cb : W → List Val → R (W × List Val)
  fnIn : {V : Type} → (V → List Val → R (V × List Val)) → Id → Bool → List Val → V → R (V × List Val)

def one : List Val → R Val
  | [v] => .ok v
  | _ => .stuck

mutual
def eval {W : Type} (Γ : Ctx W) (env : Env) : Expr → R Val
  | .var x =>
    match env.get x with
    | some v => .ok v
    | none => match Γ.const x with
      | some v => .ok v
      | none => .stuck
  | .lit v => .ok v
  | .not e => (eval Γ env e).bind fun v => v.bool?.bind fun b => .ok (.bool !b)
  | .neg e => (eval Γ env e).bind fun v => v.int?.bind fun n => .ok (.int (-n))
  | .bin op a b => (eval Γ env a).bind fun x => (eval Γ env b).bind fun y => op.run x y
  | .and a b => (eval Γ env a).bind fun x => x.bool?.bind fun x =>
      if x then (eval Γ env b).bind fun y => y.bool?.bind fun y => .ok (.bool y) else .ok (.bool false)
  | .or a b => (eval Γ env a).bind fun x => x.bool?.bind fun x =>
      if x then .ok (.bool true) else (eval Γ env b).bind fun y => y.bool?.bind fun y => .ok (.bool y)
  | .index a i => (eval Γ env a).bind fun x => (eval Γ env i).bind fun y => x.index y
  | .slice a lo hi => (eval Γ env a).bind fun x => (eval Γ env lo).bind fun l => (eval Γ env hi).bind fun h => x.slice l h
  | .sliceFrom a lo => (eval Γ env a).bind fun x => (eval Γ env lo).bind fun l => x.len.bind fun h => x.slice l (.int h)
  | .len a => (eval Γ env a).bind fun x => x.len.bind fun n => .ok (.int n)
  | .append a b => (eval Γ env a).bind fun x => (eval Γ env b).bind fun y => x.append y
  | .appendAll a b => (eval Γ env a).bind fun x => (eval Γ env b).bind fun y => x.appendAll y
  | .conv a => (eval Γ env a).bind fun x => x.bytes?.bind fun b => .ok (.bytes b)
  | .make k n => (eval Γ env n).bind fun x => x.int?.bind fun n => if n < 0 then .panic else .ok (k.zeros n.toNat)
  | .makeCap k n c => (eval Γ env n).bind fun x => x.int?.bind fun n => (eval Γ env c).bind fun y => y.int?.bind fun c =>
      if n < 0 ∨ c < n then .panic else .ok (k.zeros n.toNat)
  | .list k es => (evals Γ env es).bind fun vs => vs.foldlM (fun a v => a.append v) (k.zeros 0)
  | .call f spread args => (evals Γ env args).bind fun vs => (Γ.fn f spread vs).bind one
  | .field a f => (eval Γ env a).bind fun x => x.field env f
  | .upd a i v => (eval Γ env a).bind fun x => (eval Γ env i).bind fun i => (eval Γ env v).bind fun v => x.store i v
def evals {W : Type} (Γ : Ctx W) (env : Env) : Exprs → R (List Val)
  | .nil => .ok []
  | .cons e es => (eval Γ env e).bind fun v => (evals Γ env es).bind fun vs => .ok (v :: vs)
end

structure St (W : Type) where
  w : W
  env : Env

/-- How a statement ends. -/
inductive Res (W : Type) where
  | norm (s : St W)
  | brk (s : St W)
  | cont (s : St W)
  | jump (l : Id) (s : St W)
  | ret (w : W) (vs : List Val)
  | panic
  | stuck

def Res.ofR {W α : Type} (x : R α) (f : α → Res W) : Res W :=
  match x with
  | .ok a => f a
  | .panic => .panic
  | .stuck => .stuck

/-- Go on after a statement that ends normally. -/
def Res.andThen {W : Type} (r : Res W) (f : St W → Res W) : Res W :=
  match r with
  | .norm s => f s
  | r => r

def St.leave {W : Type} (s : St W) : St W := ⟨s.w, s.env.leave⟩

/-- The end of a block. -/
def Res.leave {W : Type} : Res W → Res W
  | .norm s => .norm s.leave
  | .brk s => .brk s.leave
  | .cont s => .cont s.leave
  | .jump l s => .jump l s.leave
  | r => r

/-- Declare (`new`) or assign variables; the name 0 is `_`. -/
def bindVars (new : Bool) : List Id → List Val → Env → R Env
  | [], [], env => .ok env
  | x :: xs, v :: vs, env =>
    if x == 0 then bindVars new xs vs env
    else if new then bindVars new xs vs ((x, v) :: env)
    else match env.set x v with
      | some env => bindVars new xs vs env
      | none => .stuck
  | _, _, _ => .stuck

/-- `for c { body; post }`, at most `n` times round. -/
def loopN {W : Type} (c : St W → R Bool) (post body : St W → Res W) : Nat → St W → Res W
  | 0, _ => .stuck
  | n + 1, s => Res.ofR (c s) fun b =>
    if b then
      match body s with
      | .norm s => (post s).andThen (loopN c post body n)
      | .cont s => (post s).andThen (loopN c post body n)
      | .brk s => .norm s
      | r => r
    else .norm s

/-- Declare a variable unless it is `_`. -/
def Env.new (x : Id) (v : Val) (env : Env) : Env := if x == 0 then env else (x, v) :: env

/-- `for k, v := range …` over the pairs. -/
def rangeN {W : Type} (k v : Id) (body : St W → Res W) : List (Val × Val) → St W → Res W
  | [], s => .norm s
  | (i, a) :: items, s =>
    match (body ⟨s.w, Env.new v a (Env.new k i ((0, .nil) :: s.env))⟩).leave with
    | .norm s => rangeN k v body items s
    | .cont s => rangeN k v body items s
    | .brk s => .norm s
    | r => r

/-- The end of the body of a function literal: the variables `caps` of `env` get the first of the values returned. -/
def closing {W : Type} (caps : List Id) (env : Env) : Res W → R (St W × List Val)
  | .ret w vs => (bindVars false caps (vs.take caps.length) env).bind fun env => .ok (⟨w, env⟩, vs.drop caps.length)
  | .panic => .panic
  | _ => .stuck

def exec {W : Type} (Γ : Ctx W) (fuel : Nat) : Stmt → St W → Res W
  | .skip, s => .norm s
  | .seq a b, s => (exec Γ fuel a s).andThen fun s => exec Γ fuel b s
  | .block a, s => (exec Γ fuel a ⟨s.w, (0, .nil) :: s.env⟩).leave
  | .decl x e, s => Res.ofR (eval Γ s.env e) fun v => .norm ⟨s.w, (x, v) :: s.env⟩
  | .assign x e, s => Res.ofR (eval Γ s.env e) fun v =>
      match s.env.set x v with
      | some env => .norm ⟨s.w, env⟩
      | none => .stuck
  | .store x i e, s => Res.ofR (eval Γ s.env (.var x)) fun a => Res.ofR (eval Γ s.env i) fun i => Res.ofR (eval Γ s.env e) fun v =>
      Res.ofR (a.store i v) fun a =>
      match s.env.set x a with
      | some env => .norm ⟨s.w, env⟩
      | none => .stuck
  | .copy x i e, s => Res.ofR (eval Γ s.env (.var x)) fun a => Res.ofR (eval Γ s.env i) fun i => Res.ofR (eval Γ s.env e) fun v =>
      Res.ofR (a.copy i v) fun a =>
      match s.env.set x a with
      | some env => .norm ⟨s.w, env⟩
      | none => .stuck
  | .call new xs f spread args, s => Res.ofR (evals Γ s.env args) fun vs => Res.ofR (Γ.fn f spread vs) fun rs =>
      Res.ofR (bindVars new xs rs s.env) fun env => .norm ⟨s.w, env⟩
  | .callback new xs args, s => Res.ofR (evals Γ s.env args) fun vs => Res.ofR (Γ.cb s.w vs) fun r =>
      Res.ofR (bindVars new xs r.2 s.env) fun env => .norm ⟨r.1, env⟩
  | .new x l v u, s => Res.ofR (eval Γ s.env l) fun l => Res.ofR (eval Γ s.env v) fun v => Res.ofR (eval Γ s.env u) fun u =>
      Res.ofR s.env.heap fun h => Res.ofR (newNode l v u) fun r =>
      match s.env.set heapId (.heap (h ++ [r])) with
      | some env => .norm ⟨s.w, (x, .ptr h.length) :: env⟩
      | none => .stuck
  | .setField a f e, s => Res.ofR (eval Γ s.env a) fun a => Res.ofR (eval Γ s.env e) fun v => Res.ofR (a.setField s.env f v) fun h =>
      match s.env.set heapId h with
      | some env => .norm ⟨s.w, env⟩
      | none => .stuck
  | .callCb new xs f spread args, s => Res.ofR (evals Γ s.env args) fun vs => Res.ofR (Γ.fnIn Γ.cb f spread vs s.w) fun r =>
      Res.ofR (bindVars new xs r.2 s.env) fun env => .norm ⟨r.1, env⟩
  | .callLit new xs f spread args ps caps body, s => Res.ofR (evals Γ s.env args) fun vs =>
      Res.ofR (Γ.fnIn (fun (s : St W) vs => (bindVars true ps vs ((0, .nil) :: s.env)).bind fun env =>
          closing caps s.env (exec Γ fuel body ⟨s.w, env⟩)) f spread vs s) fun r =>
      Res.ofR (bindVars new xs r.2 r.1.env) fun env => .norm ⟨r.1.w, env⟩
  | .ite c a b, s => Res.ofR (eval Γ s.env c) fun v => Res.ofR v.bool? fun x => if x then exec Γ fuel a s else exec Γ fuel b s
  | .loop c post body, s =>
      loopN (fun s => (eval Γ s.env c).bind Val.bool?) (fun s => exec Γ fuel post s) (fun s => exec Γ fuel body s) fuel s
  | .range k v e body, s => Res.ofR (eval Γ s.env e) fun a => Res.ofR a.items fun items =>
      rangeN k v (fun s => exec Γ fuel body s) items s
  | .switch a, s =>
      match exec Γ fuel a s with
      | .brk s => .norm s
      | r => r
  | .brk, s => .brk s
  | .cont, s => .cont s
  | .goto l, s => .jump l s
  | .label a l b, s =>
      match exec Γ fuel a s with
      | .norm s => exec Γ fuel b s
      | .jump l' s => if l' == l then exec Γ fuel b s else .jump l' s
      | r => r
  | .ret es, s => Res.ofR (evals Γ s.env es) fun vs => .ret s.w vs
  | .retCall f spread args, s => Res.ofR (evals Γ s.env args) fun vs => Res.ofR (Γ.fn f spread vs) fun rs => .ret s.w rs

/-- The strings among values, for the arguments of a variadic function. -/
def strings : List Val → R (List Bytes)
  | [] => .ok []
  | .bytes b :: vs => (strings vs).bind fun l => .ok (b :: l)
  | _ => .stuck

/-- Parameters and arguments; for a call without `…` the arguments beyond the last parameter are packed. -/
def bindParams (variadic spread : Bool) : List Id → List Val → R Env
  | [], [] => .ok []
  | [x], vs =>
    if variadic && !spread then (strings vs).bind fun l => .ok [(x, .strs l)]
    else match vs with
      | [v] => .ok [(x, v)]
      | _ => .stuck
  | x :: xs, v :: vs => (bindParams variadic spread xs vs).bind fun env => .ok ((x, v) :: env)
  | _, _ => .stuck

/-- Run a function. -/
def Func.run {W : Type} (f : Func) (Γ : Ctx W) (fuel : Nat) (spread : Bool) (args : List Val) (w : W) : R (W × List Val) :=
  (bindParams f.variadic spread f.params args).bind fun env =>
    match exec Γ fuel f.body ⟨w, env⟩ with
    | .ret w vs => .ok (w, vs)
    | .norm s => .ok (s.w, [])
    | .panic => .panic
    | _ => .stuck

/-- A package: functions, constants, and what it imports. -/
structure Prog where
  funcs : List Func
  consts : List (Id × Val)
  lib : Id → List Val → R (List Val)

/-- Run a function of the package with a function `cb` as a parameter, for calls nested at most `depth` deep. -/
def Prog.fnIn (P : Prog) (fuel : Nat) : Nat → {V : Type} → (V → List Val → R (V × List Val)) → Id → Bool → List Val → V → R (V × List Val)
  | 0, _, _, _, _, _, _ => .stuck
  | depth + 1, _, cb, f, spread, args, v =>
    match P.funcs.find? fun g => g.name == f with
    | some g =>
      g.run ⟨fun x => P.consts.lookup x,
        fun f spread args => (P.fnIn fuel depth (V := Unit) (fun _ _ => .stuck) f spread args ()).bind fun r => .ok r.2,
        cb, P.fnIn fuel depth⟩ fuel spread args v
    | none => (P.lib f args).bind fun r => .ok (v, r)

/-- The same without a function as a parameter. -/
def Prog.fn (P : Prog) (fuel depth : Nat) (f : Id) (spread : Bool) (args : List Val) : R (List Val) :=
  (P.fnIn fuel depth (V := Unit) (fun _ _ => .stuck) f spread args ()).bind fun r => .ok r.2

/-- What the bodies of functions see that get the function `cb` as a parameter. -/
def Prog.ctx {W : Type} (P : Prog) (fuel depth : Nat) (cb : W → List Val → R (W × List Val)) : Ctx W :=
  ⟨fun x => P.consts.lookup x, P.fn fuel depth, cb, P.fnIn fuel depth⟩

end Jin.Go
