import Verif.Model.ParserPtr
/-!
# Go.Syntax — the part of Go the package is written in

Syntax trees of statements and expressions.  `Go.Parse` reads them from the text of `/repo`, `Go.Sem` runs them.
-/

namespace Jin.Go

/-- An identifier: its letters as a number in base 256 (so that comparing two of them is cheap in proofs). -/
abbrev Id := Nat

deriving instance DecidableEq, Repr for NodeRec

/-- Values.  `bytes` are `[]byte` and `string`, `strs`, `ints`, `bools`, `floats` the slices of these types; a `float`
is its 64 bits; `nil` is the `nil` of any type.  `ptr` is a `*node` and `ptrs` a `[]*node`, with addresses in the memory
`heap`; `map` is a `map[string]string`, with its entries in some order. -/
inductive Val where
  | nil
  | int (n : Int)
  | byte (c : UInt8)
  | bool (b : Bool)
  | bytes (b : Bytes)
  | strs (l : List Bytes)
  | ints (l : List Int)
  | bools (l : List Bool)
  | float (x : UInt64)
  | floats (l : List UInt64)
  | err (e : Err)
  | func
  | ptr (p : Nat)
  | ptrs (l : List Nat)
  | heap (h : List NodeRec)
  | map (m : List (Bytes × Bytes))
deriving DecidableEq, Repr

/-- Element types of `make` and of literals. -/
inductive Kind where
  | bytes | strs | ints | bools | floats | ptrs
deriving DecidableEq, Repr

inductive BinOp where
  | add | sub | mul | mod | land | eq | ne | lt | le | gt | ge
deriving DecidableEq, Repr

/-- The fields of `node`. -/
inductive Field where
  | label | value | up | down
deriving DecidableEq, Repr

mutual
inductive Expr where
  | var (x : Id)
  | lit (v : Val)
  | not (e : Expr)
  | neg (e : Expr)
  | bin (op : BinOp) (a b : Expr)
  | and (a b : Expr)
  | or (a b : Expr)
  | index (a i : Expr)
  | slice (a lo hi : Expr)                                  -- a[lo:hi]
  | sliceFrom (a lo : Expr)                                 -- a[lo:]
  | len (a : Expr)
  | append (a b : Expr)                                     -- append(a, b)
  | appendAll (a b : Expr)                                  -- append(a, b...)
  | conv (a : Expr)                                         -- string(a), []byte(a)
  | make (k : Kind) (n : Expr)                              -- make([]T, n)
  | makeCap (k : Kind) (n c : Expr)                         -- make([]T, n, c)
  | list (k : Kind) (es : Exprs)                            -- []T{…}
  | call (f : Id) (spread : Bool) (args : Exprs)            -- f(args), f(args...)
  | field (a : Expr) (f : Field)                            -- a.f, for a pointer a to a node
  | upd (a i v : Expr)                                      -- a after a[i] = v
inductive Exprs where
  | nil
  | cons (e : Expr) (es : Exprs)
end

inductive Stmt where
  | skip
  | seq (s t : Stmt)
  | block (s : Stmt)
  | decl (x : Id) (e : Expr)                                -- x := e, var x T = e
  | assign (x : Id) (e : Expr)                              -- x = e
  | store (x : Id) (i e : Expr)                             -- x[i] = e
  | copy (x : Id) (i e : Expr)                              -- copy(x[i:], e)
  | call (new : Bool) (xs : List Id) (f : Id) (spread : Bool) (args : Exprs)   -- xs := f(args), xs = f(args)
  | callback (new : Bool) (xs : List Id) (args : Exprs)     -- the same for the parameter that is a function
  | ite (c : Expr) (s t : Stmt)
  | loop (c : Expr) (post body : Stmt)
  | range (k v : Id) (e : Expr) (body : Stmt)               -- for k, v := range e
  | switch (s : Stmt)                                       -- a `break` in s leaves it
  | brk
  | cont
  | goto (l : Id)
  | label (s : Stmt) (l : Id) (t : Stmt)                    -- s; l: t
  | ret (es : Exprs)
  | new (x : Id) (label value up : Expr)                    -- x := &node{label: label, value: value, up: up}
  | setField (a : Expr) (f : Field) (e : Expr)              -- a.f = e
  | callCb (new : Bool) (xs : List Id) (f : Id) (spread : Bool) (args : Exprs)   -- xs := f(args) with the own parameter that is a function
  | callLit (new : Bool) (xs : List Id) (f : Id) (spread : Bool) (args : Exprs) (ps caps : List Id) (body : Stmt)
      -- xs := f(args) with func(ps) { body }; body returns the variables caps before its results
  | retCall (f : Id) (spread : Bool) (args : Exprs)         -- return f(args), with all the results of f
deriving Inhabited

deriving instance Repr for Expr, Exprs, Stmt
instance : Inhabited Expr := ⟨.lit .nil⟩

/-- A function: `variadic` when its last parameter is `…T`. -/
structure Func where
  name : Id
  params : List Id
  variadic : Bool
  body : Stmt
deriving Inhabited, Repr

end Jin.Go
