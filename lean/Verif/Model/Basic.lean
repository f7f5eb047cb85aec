/-!
# Model.Basic — the Go fragment shared by every function of `ecoshub/jin`

A Go `[]byte`/`string` is a `List UInt8`.  A Go computation that may panic or
return an `error` is an `Out`.  A Go `for i := a; i < hi; i++ { body }` loop is
`forUp`, with the loop body written as an ordinary (non recursive) function.
-/

namespace Jin

/-- Go `[]byte` and Go `string` (both are immutable here; no function of the
package writes through a byte slice it was given). -/
abbrev Bytes := List UInt8

/-- The errors built in `/repo/errors.go:46-133`.  `other` stands for errors
that come from a user callback (`inter_iter.go`, `walk.go`). -/
inductive Err where
  | nullPath                       -- errors.go:46-48   code 00
  | emptyArray                     -- errors.go:51-53   code 02
  | indexExpected                  -- errors.go:56-58   code 03
  | objectExpected                 -- errors.go:61-63   code 05
  | arrayExpected                  -- errors.go:66-68   code 06
  | indexOutOfRange                -- errors.go:71-73   code 07
  | keyNotFound (key : Bytes)      -- errors.go:76-78   code 08
  | badJSON (at_ : Int)            -- errors.go:81-83   code 09
  | keyAlreadyExist (key : Bytes)  -- errors.go:86-88   code 11
  | integerParse (v : Bytes)       -- errors.go:91-93   code 12
  | floatParse (v : Bytes)         -- errors.go:96-98   code 13
  | boolParse (v : Bytes)          -- errors.go:101-103 code 14
  | stringArrayParse (v : Bytes)   -- errors.go:106-108 code 15
  | integerArrayParse (v : Bytes)  -- errors.go:111-113 code 16
  | floatArrayParse (v : Bytes)    -- errors.go:116-118 code 17
  | boolArrayParse (v : Bytes)     -- errors.go:121-123 code 18
  | nullKey                        -- errors.go:126-128 code 19
  | empty                          -- errors.go:131-133 code 20
  | other (msg : Bytes)            -- not in errors.go: an error value made by the caller
deriving DecidableEq, Repr

/-- Result of a Go function `func(...) (T, error)` whose `T` is meaningless
when the error is non-nil; `panic` is a run-time panic (index or slice bounds
out of range, `nil` dereference, or an explicit panic in `strconv`). -/
inductive Out (α : Type) where
  | ok (a : α)
  | err (e : Err)
  | panic
deriving DecidableEq, Repr

namespace Out

@[inline] protected def bind {α β : Type} (x : Out α) (f : α → Out β) : Out β :=
  match x with
  | .ok a => f a
  | .err e => .err e
  | .panic => .panic

@[inline] protected def map {α β : Type} (f : α → β) (x : Out α) : Out β :=
  match x with
  | .ok a => .ok (f a)
  | .err e => .err e
  | .panic => .panic

instance : Monad Out where
  pure := .ok
  bind := Out.bind

@[simp] theorem bind_ok {α β} (a : α) (f : α → Out β) : (Out.ok a >>= f) = f a := rfl
@[simp] theorem bind_err {α β} (e : Err) (f : α → Out β) : ((Out.err e : Out α) >>= f) = .err e := rfl
@[simp] theorem bind_panic {α β} (f : α → Out β) : ((Out.panic : Out α) >>= f) = .panic := rfl
@[simp] theorem pure_eq {α} (a : α) : (pure a : Out α) = .ok a := rfl
@[simp] theorem map_ok {α β} (f : α → β) (a : α) : Out.map f (.ok a) = .ok (f a) := rfl
@[simp] theorem map_err {α β} (f : α → β) (e : Err) : Out.map f (.err e : Out α) = .err e := rfl
@[simp] theorem map_panic {α β} (f : α → β) : Out.map f (.panic : Out α) = .panic := rfl

end Out

/-- Result of a mutating Go function `func(json []byte, ...) ([]byte, error)`:
both components are observable, because the caller gets the bytes even when
the error is non-nil.  A `nil` slice is the empty list. -/
inductive Mut where
  | done (json : Bytes) (err : Option Err)
  | panic
deriving DecidableEq, Repr

/-- What a loop body asks for: `next` = `continue` (or falling off the end of
the body), `goto j` = assign `i = j` and then `continue` (so the next index is
`j+1`), `brk` = `break`, `ret` = `return` from the enclosing function. -/
inductive Ctl (σ ρ : Type) where
  | next (s : σ)
  | goto (j : Nat) (s : σ)
  | brk (s : σ)
  | ret (r : ρ)

/-- How a loop ends: normally or by `break` (`done`), or by `return` (`ret`). -/
inductive LoopRes (σ ρ : Type) where
  | done (s : σ)
  | ret (r : ρ)
deriving DecidableEq, Repr

/-- `for i := i; i < hi; i++ { body }`.  A body that assigns the loop variable
(`goto j`) only ever moves it forward in the modelled code (`j ≥ i`); `max i j`
is that same `j` and makes the loop terminate by construction. -/
def forUp {σ ρ : Type} (hi : Nat) (body : Nat → σ → Ctl σ ρ) (i : Nat) (s : σ) : LoopRes σ ρ :=
  if i < hi then
    match body i s with
    | .next s' => forUp hi body (i + 1) s'
    | .goto j s' => forUp hi body (max i j + 1) s'
    | .brk s' => .done s'
    | .ret r => .ret r
  else .done s
termination_by hi - i

/-- A Go index expression `a[i]` read as a byte; out of range panics. -/
def at? (a : Bytes) (i : Int) : Option UInt8 :=
  if i < 0 then none else a[i.toNat]?

/-- A Go index expression whose out-of-range case is a panic. -/
def idx (a : Bytes) (i : Int) : Out UInt8 :=
  match at? a i with
  | some c => .ok c
  | none => .panic

/-- A Go slice expression `a[lo:hi]` (`hi ≤ len(a)`; slicing between `len` and
`cap` is not modelled, it is counted as a panic). -/
def slice (a : Bytes) (lo hi : Int) : Out Bytes :=
  if 0 ≤ lo ∧ lo ≤ hi ∧ hi ≤ a.length then
    .ok ((a.drop lo.toNat).take (hi.toNat - lo.toNat))
  else .panic

/-- `space`, utils.go:16-34. -/
def space (c : UInt8) : Bool := c == 32 || c == 9 || c == 10 || c == 13

/-- Outcome of the backward escape scan that every quote handler runs:
`for n := i-1; n > -1; n-- { if json[n] != 92 { if (i-n)&1 != 0 {real} else {escaped} } }`
(e.g. inter_core.go:105-115, 218-228, 294-304, 427-437).  `off` = the loop ran
off the front of the slice without taking either branch. -/
inductive QScan where
  | real
  | escaped
  | off
deriving DecidableEq, Repr

/-- The loop itself: `quoteScan json i m` scans the indices `m-1, m-2, …, 0`. -/
def quoteScan (json : Bytes) (i : Nat) : Nat → QScan
  | 0 => .off
  | n + 1 =>
    if json[n]? != some 92 then
      if (i - n) % 2 != 0 then .real else .escaped
    else quoteScan json i n

/-- Membership in the `chars` table `{34,44,58,91,93,123,125}`
(`inter_core.go:26-32`) with the entries for `,` (44) and `:` (58) switched on
or off as the code does (`isJSONChar[44] = …`, `isJSONChar[58] = …`). -/
def isJSONChar (comma colon : Bool) (c : UInt8) : Bool :=
  c == 34 || c == 91 || c == 93 || c == 123 || c == 125 ||
    (comma && c == 44) || (colon && c == 58)

/-- `for space(json[offset]) { if offset > len(json)-1 {return errBadJSON} offset++ }`
(inter_core.go:34-41, 400-407 and the same loop in the other files).  The
bounds test can never be true when it is evaluated, because `json[offset]` was
indexed just before; running off the end is therefore a panic (`none`). -/
def skipSpaces (json : Bytes) (i : Nat) : Option Nat :=
  match h : json[i]? with
  | none => none
  | some c => if space c then skipSpaces json (i + 1) else some i
termination_by json.length - i
decreasing_by
  have := (List.getElem?_eq_some_iff.1 h).1
  omega

/-- `for space(json[end]) { … end-- }` going down from index `i-1` (so `i = 0`
means index `-1`, a panic). -/
def skipSpacesDown (json : Bytes) : Nat → Option Nat
  | 0 => none
  | n + 1 =>
    match json[n]? with
    | none => none
    | some c => if space c then skipSpacesDown json n else some n

end Jin
