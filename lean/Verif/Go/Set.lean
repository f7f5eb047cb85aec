import Verif.Go.Get
import Verif.Model.Set
/-!
# Go.Set — `inter_set.go` (but `Store`) and `inter_delete.go`
-/

namespace Jin.Go

/-- What a function returns that returns a text and an error. -/
def mutVals : Mut → R (List Val)
  | .done b none => .ok [.bytes b, .nil]
  | .done b (some e) => .ok [.bytes b, .err e]
  | .panic => .panic

/-- A slice of bytes that may be `nil`. -/
def optBytes : Option Bytes → Val
  | none => .nil
  | some b => .bytes b

theorem idx_cases (b : Bytes) (i : Int) : (∃ a, idx b i = .ok a) ∨ idx b i = .panic := by
  rw [idx]; cases at? b i <;> simp

theorem slice_cases (b : Bytes) (i j : Int) : (∃ a, slice b i j = .ok a) ∨ slice b i j = .panic := by
  rw [slice]; split <;> simp

theorem replace_cases (b v : Bytes) (i j : Int) : (∃ a, replace b v i j = .ok a) ∨ replace b v i j = .panic := by
  rw [replace]
  rcases slice_cases b 0 i with ⟨a, h⟩ | h
  · rcases slice_cases b j b.length with ⟨a', h'⟩ | h'
    · exact .inl ⟨_, by rw [h, h']; rfl⟩
    · exact .inr (by rw [h, h']; rfl)
  · exact .inr (by rw [h]; rfl)

theorem elem_pred (b : Bytes) (n : Nat) : elem b ((n : Int) - 1) = outR (idx b ((n : Int) - 1)) := elem_idx b _

/-- What follows the first `n` statements of a body. -/
def Stmt.rest : Stmt → Nat → Stmt
  | .block b, n => b.rest n
  | .seq _ b, n + 1 => b.rest n
  | s, _ => s

/-- What a call gives when this is how its body ends. -/
def Mut.res : Mut → Res Unit
  | .done b none => .ret () [.bytes b, .nil]
  | .done b (some e) => .ret () [.bytes b, .err e]
  | .panic => .panic

@[go_run] theorem byteOf_two : byteOf 2 = .ok 2 := rfl

@[go_run] theorem Mut.res_leave (m : Mut) : (Mut.res m).leave = Mut.res m := by
  match m with
  | .done _ none => rfl
  | .done _ (some _) => rfl
  | .panic => rfl

theorem mut_body {f : Func} {Γ : Ctx Unit} {fuel : Nat} {sp : Bool} {args : List Val} {env : Env} {m : Mut}
    (h1 : bindParams f.variadic sp f.params args = .ok env) (h2 : exec Γ fuel f.body ⟨(), env⟩ = Mut.res m) :
    ((f.run Γ fuel sp args ()).bind fun r => .ok r.2) = mutVals m := by
  rw [Func.run, h1]
  simp only [R.bind, h2]
  match m with
  | .done _ none => rfl
  | .done _ (some _) => rfl
  | .panic => rfl

section
variable {fl : FloatLib UInt64} {fuel d : Nat} {sp : Bool} {json : Bytes} {path : List Bytes}

@[go_run] theorem run_replace_nil (json : Bytes) (start stop : Int) :
    (jin fl).fn fuel (d + 1) (go% replace) sp [.bytes json, .nil, .int start, .int stop] =
      (outR (replace json [] start stop)).bind fun b => .ok [.bytes b] := by
  rw [← run_replace (fl := fl) (fuel := fuel) (d := d) (sp := sp)]
  rw [fn_run (g := Src.replace) rfl, fn_run (g := Src.replace) rfl]
  by_cases hc : ((json.length : Int) - stop + start + 0 < 0)
  · run_go [Func.run, Src.replace, bindParams, hc, List.length_nil, Int.natCast_zero]
  · rcases slice_cases json 0 start with ⟨a, h⟩ | h
    · rcases slice_cases json stop json.length with ⟨a', h'⟩ | h'
      · run_go [Func.run, Src.replace, bindParams, hc, List.length_nil, Int.natCast_zero, h, h', List.append_nil]
      · run_go [Func.run, Src.replace, bindParams, hc, List.length_nil, Int.natCast_zero, h, h', List.append_nil]
    · run_go [Func.run, Src.replace, bindParams, hc, List.length_nil, Int.natCast_zero, h]

/-! ### Set -/

theorem run_Set' (hf : need json path < fuel) (v : Option Bytes) :
    (jin fl).fn fuel (d + 3) (go% Set) true [.bytes json, optBytes v, .strs path] = mutVals (Set json (v.getD []) path) := by
  rw [fn_run (g := Src.Set) rfl]
  cases hp : path.length == 0
  rotate_left
  · run_go [Func.run, Src.Set, bindParams, Set, hp, mutVals]
  · cases h : core json false path with
    | err e => run_go [Func.run, Src.Set, bindParams, Set, hp, mutVals, run_core hf, h, locVals, Mut.bindOut]
    | panic => run_go [Func.run, Src.Set, bindParams, Set, hp, mutVals, run_core hf, h, locVals, Mut.bindOut]
    | ok l =>
      have e1 := elem_pred json l.start
      have e2 := elem_idx json l.stop
      rcases idx_cases json ((l.start : Int) - 1) with ⟨a, h1⟩ | h1
      · cases h2 : a == 34
        · rcases replace_cases json (v.getD []) l.start l.stop with ⟨r, h3⟩ | h3 <;> cases v <;>
            simp only [Option.getD_none, Option.getD_some] at h3 <;>
            run_go [Func.run, Src.Set, bindParams, Set, hp, mutVals, run_core hf, h, locVals, Mut.bindOut, replaceValue, quotedAt,
              e1, h1, h2, h3, Mut.ofOut, optBytes, Option.getD_none, Option.getD_some]
        · rcases idx_cases json l.stop with ⟨b, h3⟩ | h3
          · rw [idx_nat] at h3
            cases h4 : b == 34
            · rcases replace_cases json (v.getD []) l.start l.stop with ⟨r, h5⟩ | h5 <;> cases v <;>
                simp only [Option.getD_none, Option.getD_some] at h5 <;>
                run_go [Func.run, Src.Set, bindParams, Set, hp, mutVals, run_core hf, h, locVals, Mut.bindOut, replaceValue, quotedAt,
                  e1, h1, h2, h3, h4, h5, e2, idx_nat, Mut.ofOut, optBytes, Option.getD_none, Option.getD_some]
            · rcases replace_cases json (v.getD []) ((l.start : Int) - 1) (l.stop + 1) with ⟨r, h5⟩ | h5 <;> cases v <;>
                simp only [Option.getD_none, Option.getD_some] at h5 <;>
                run_go [Func.run, Src.Set, bindParams, Set, hp, mutVals, run_core hf, h, locVals, Mut.bindOut, replaceValue, quotedAt,
                  e1, h1, h2, h3, h4, h5, e2, idx_nat, Mut.ofOut, optBytes, Option.getD_none, Option.getD_some]
          · rw [idx_nat] at h3
            run_go [Func.run, Src.Set, bindParams, Set, hp, mutVals, run_core hf, h, locVals, Mut.bindOut, replaceValue, quotedAt,
              e1, h1, h2, h3, e2, idx_nat]
      · run_go [Func.run, Src.Set, bindParams, Set, hp, mutVals, run_core hf, h, locVals, Mut.bindOut, replaceValue, quotedAt,
          e1, h1]

@[go_run] theorem run_Set (hf : need json path < fuel) (v : Bytes) :
    (jin fl).fn fuel (d + 3) (go% Set) true [.bytes json, .bytes v, .strs path] = mutVals (Set json v path) :=
  run_Set' hf (some v)

/-! ### Delete -/

theorem del_for1 (hf : json.length < fuel) {st : Nat} (hst : st ≤ json.length) (p k s0 e : Int) :
    exec (ctx fl fuel (d + 1)) fuel Src.Delete.for1 ⟨(), [(go% endEdge, .int 0), (go% startEdge, .int 0), (go% start, .int st),
      (go% err, .nil), (go% e, .int e), (go% s, .int s0), (go% ks, .int k), (go% lenp, .int p), (0, .nil), (go% json, .bytes json),
      (go% path, .strs path)]⟩ =
    .norm ⟨(), [(go% endEdge, .int 0), (go% startEdge, .int ((lastNS json 1 st).getD 0 : Nat)), (go% start, .int st),
      (go% err, .nil), (go% e, .int e), (go% s, .int s0), (go% ks, .int k), (go% lenp, .int p), (0, .nil), (go% json, .bytes json),
      (go% path, .strs path)]⟩ := by
  run_go [Src.Delete.for1]
  refine (loop_last (json := json) (lo := 1) (fun i : Int => (⟨(), [(go% i, .int i), (0, .nil), (go% endEdge, .int 0),
      (go% startEdge, .int 0), (go% start, .int st),
      (go% err, .nil), (go% e, .int e), (go% s, .int s0), (go% ks, .int k), (go% lenp, .int p), (0, .nil), (go% json, .bytes json),
      (go% path, .strs path)]⟩ : St Unit))
      (fun i => .norm ⟨(), [(go% endEdge, .int 0), (go% startEdge, .int i), (go% start, .int st),
      (go% err, .nil), (go% e, .int e), (go% s, .int s0), (go% ks, .int k), (go% lenp, .int p), (0, .nil), (go% json, .bytes json),
      (go% path, .strs path)]⟩)
      ?_ ?_ ?_ fuel st hst (by omega)).trans ?_
  · intro i
    have h : ((0 : Int) < i) = (((1 : Nat) : Int) ≤ i) := by simp; omega
    run_go [h]
  · intro i c hc hs
    refine ⟨_, by run_go [Src.Delete.body1, hc, hs]; rfl, by run_go []⟩
  · intro i c hc hs
    run_go [Src.Delete.body1, hc, hs]
  · cases h : lastNS json 1 st <;> rfl

theorem del_for2 (hf : json.length < fuel) {e : Nat} (p k s0 s1 st : Int) :
    exec (ctx fl fuel (d + 1)) fuel Src.Delete.for2 ⟨(), [(go% endEdge, .int 0), (go% startEdge, .int s1), (go% start, .int st),
      (go% err, .nil), (go% e, .int e), (go% s, .int s0), (go% ks, .int k), (go% lenp, .int p), (0, .nil), (go% json, .bytes json),
      (go% path, .strs path)]⟩ =
    .norm ⟨(), [(go% endEdge, .int ((firstNS json e json.length).getD 0 : Nat)), (go% startEdge, .int s1), (go% start, .int st),
      (go% err, .nil), (go% e, .int e), (go% s, .int s0), (go% ks, .int k), (go% lenp, .int p), (0, .nil), (go% json, .bytes json),
      (go% path, .strs path)]⟩ := by
  run_go [Src.Delete.for2]
  refine (loop_first (json := json) (hi := json.length) (fun i : Nat => (⟨(), [(go% i, .int i), (0, .nil), (go% endEdge, .int 0),
      (go% startEdge, .int s1), (go% start, .int st),
      (go% err, .nil), (go% e, .int e), (go% s, .int s0), (go% ks, .int k), (go% lenp, .int p), (0, .nil), (go% json, .bytes json),
      (go% path, .strs path)]⟩ : St Unit))
      (fun i => .norm ⟨(), [(go% endEdge, .int i), (go% startEdge, .int s1), (go% start, .int st),
      (go% err, .nil), (go% e, .int e), (go% s, .int s0), (go% ks, .int k), (go% lenp, .int p), (0, .nil), (go% json, .bytes json),
      (go% path, .strs path)]⟩)
      ?_ (Nat.le_refl _) ?_ ?_ fuel e (by omega)).trans ?_
  · intro i
    run_go []
  · intro i c _ hc hs
    refine ⟨_, by run_go [Src.Delete.body2, hc, hs]; rfl, by run_go []; rfl⟩
  · intro i c _ hc hs
    run_go [Src.Delete.body2, hc, hs]
  · cases h : firstNS json e json.length <;> rfl

/-- The end of `Delete`. -/
def delRest (json : Bytes) (start e : Nat) : Mut :=
  let (startEdge, endEdge) := edges json start e
  Mut.bindOut json (idx json startEdge) fun a =>
  Mut.bindOut json (idx json endEdge) fun z =>
    if (a == 91 || a == 123) && a + 2 == z then Mut.ofOut (replace json [] start e)
    else if z == 44 then Mut.ofOut (replace json [] start (endEdge + 1))
    else if a == 44 then Mut.ofOut (replace json [] startEdge e)
    else .done json (some (.badJSON start))

theorem del_tail (st en : Nat) (p k s0 : Int) :
    exec (ctx fl fuel (d + 1)) fuel (Src.Delete.body.rest 12) ⟨(), [(go% endEdge, .int ((firstNS json en json.length).getD 0 : Nat)),
      (go% startEdge, .int ((lastNS json 1 st).getD 0 : Nat)), (go% start, .int st),
      (go% err, .nil), (go% e, .int en), (go% s, .int s0), (go% ks, .int k), (go% lenp, .int p), (0, .nil), (go% json, .bytes json),
      (go% path, .strs path)]⟩ =
    Mut.res (delRest json st en) := by
  rw [delRest, edges]
  generalize (firstNS json en json.length).getD 0 = Z
  generalize (lastNS json 1 st).getD 0 = A
  simp only [Src.Delete, Stmt.rest]
  cases hA : json[A]? with
  | none => run_go [idx_nat, hA, outOpt, Mut.bindOut, Mut.res]
  | some a =>
    cases hZ : json[Z]? with
    | none =>
      cases h1 : a == 91 <;> cases h2 : a == 123 <;> run_go [idx_nat, hA, hZ, h1, h2, outOpt, Mut.bindOut, Mut.res]
    | some z =>
      cases h1 : (a == 91 || a == 123) && a + 2 == z
      · have h1' : (a == 91) = false ∧ (a == 123) = false ∨ (a + 2 == z) = false := by
          revert h1; cases a == 91 <;> cases a == 123 <;> cases a + 2 == z <;> simp
        cases h3 : z == 44
        · cases h4 : a == 44
          · rcases h1' with ⟨h5, h6⟩ | h5
            · run_go [idx_nat, hA, hZ, outOpt, Mut.bindOut, Mut.res, h1, h3, h4, h5, h6]
            · cases h6 : a == 91 <;> cases h7 : a == 123 <;> run_go [idx_nat, hA, hZ, outOpt, Mut.bindOut, Mut.res, h3, h4, h5, h6, h7]
          · rcases replace_cases json [] A en with ⟨r, h⟩ | h <;> rcases h1' with ⟨h5, h6⟩ | h5
            · run_go [idx_nat, hA, hZ, outOpt, Mut.bindOut, Mut.res, Mut.ofOut, h, h3, h4, h5, h6]
            · cases h6 : a == 91 <;> cases h7 : a == 123 <;> run_go [idx_nat, hA, hZ, outOpt, Mut.bindOut, Mut.res, Mut.ofOut, h, h3, h4, h5, h6, h7]
            · run_go [idx_nat, hA, hZ, outOpt, Mut.bindOut, Mut.res, Mut.ofOut, h, h3, h4, h5, h6]
            · cases h6 : a == 91 <;> cases h7 : a == 123 <;> run_go [idx_nat, hA, hZ, outOpt, Mut.bindOut, Mut.res, Mut.ofOut, h, h3, h4, h5, h6, h7]
        · rcases replace_cases json [] st ((Z : Int) + 1) with ⟨r, h⟩ | h <;> rcases h1' with ⟨h5, h6⟩ | h5
          · run_go [idx_nat, hA, hZ, outOpt, Mut.bindOut, Mut.res, Mut.ofOut, h, h3, h5, h6]
          · cases h6 : a == 91 <;> cases h7 : a == 123 <;> run_go [idx_nat, hA, hZ, outOpt, Mut.bindOut, Mut.res, Mut.ofOut, h, h3, h5, h6, h7]
          · run_go [idx_nat, hA, hZ, outOpt, Mut.bindOut, Mut.res, Mut.ofOut, h, h3, h5, h6]
          · cases h6 : a == 91 <;> cases h7 : a == 123 <;> run_go [idx_nat, hA, hZ, outOpt, Mut.bindOut, Mut.res, Mut.ofOut, h, h3, h5, h6, h7]
      · obtain ⟨h1', h2⟩ : (a == 91 || a == 123) = true ∧ (a + 2 == z) = true := by simpa using h1
        rcases replace_cases json [] st en with ⟨r, h⟩ | h <;> cases h6 : a == 91 <;> simp only [h6, Bool.false_or] at h1' <;>
          run_go [idx_nat, hA, hZ, outOpt, Mut.bindOut, Mut.res, Mut.ofOut, h, h2, h6, h1']

theorem del_at {st en : Nat} (hf : json.length < fuel) (hst : st ≤ json.length) (p k s0 : Int) :
    exec (ctx fl fuel (d + 1)) fuel (Src.Delete.body.rest 10) ⟨(), [(go% endEdge, .int 0), (go% startEdge, .int 0), (go% start, .int st),
      (go% err, .nil), (go% e, .int en), (go% s, .int s0), (go% ks, .int k), (go% lenp, .int p), (0, .nil), (go% json, .bytes json),
      (go% path, .strs path)]⟩ = Mut.res (delRest json st en) := by
  rw [← del_tail (fl := fl) (d := d) (fuel := fuel) (path := path) st en p k s0]
  simp only [Src.Delete, Stmt.rest]
  rw [exec, del_for1 hf hst]
  simp only [Res.andThen]
  rw [exec, del_for2 hf]
  rfl

theorem run_Delete (hf : need json path < fuel) :
    (jin fl).fn fuel (d + 3) (go% Delete) true [.bytes json, .strs path] = mutVals (Delete json path) := by
  rw [fn_run (g := Src.Delete) rfl]
  refine mut_body rfl ?_
  have hf' : json.length < fuel := by unfold need at hf; omega
  cases hp : path.length == 0
  rotate_left
  · run_go [Src.Delete, Delete, hp, Mut.res]
  cases h : core json false path with
  | err e => run_go [Src.Delete, Delete, hp, Mut.res, run_core hf, h, locVals, Mut.bindOut]
  | panic => run_go [Src.Delete, Delete, hp, Mut.res, run_core hf, h, locVals, Mut.bindOut]
  | ok l =>
    obtain ⟨hspot, hkey⟩ := core_shape (by rintro rfl; cases hp) h
    have hle : l.start ≤ json.length := Nat.le_trans hspot.le hspot.len
    obtain ⟨st, hst, hk⟩ : ∃ st : Nat, st ≤ json.length ∧ ((l.keyStart == -1) = true ∧ l.start = st ∨ (l.keyStart == -1) = false ∧ l.keyStart - 1 = (st : Int) ∨
        l.keyStart = 0 ∧ st = 0) := by
      rcases hkey with h | ⟨n, key, h, -, h2, -⟩
      · exact ⟨l.start, hle, .inl ⟨by rw [h]; rfl, rfl⟩⟩
      · cases n with
        | zero => exact ⟨0, by omega, .inr (.inr ⟨h, rfl⟩)⟩
        | succ n => exact ⟨n, by omega, .inr (.inl ⟨by rw [h]; rfl, by omega⟩)⟩
    cases hst0 : st with
    | zero =>
      have q1 : elem json (0 - 1) = .panic := rfl
      have q2 : idx json (0 - 1) = .panic := rfl
      rcases hk with ⟨hk, hs⟩ | ⟨hk, hs⟩ | ⟨hk, -⟩
      · exact absurd hspot.pos (by omega)
      · rw [hst0] at hs
        run_go [Src.Delete, Delete, hp, Mut.res, run_core hf, h, locVals, Mut.bindOut, hk, hs, Int.toNat_natCast, widen,
          Int.natCast_zero, q1, q2]
      · have q0 : ((0 : Int) == -1) = false := rfl
        have q3 : elem json (0 - 1 - 1) = .panic := rfl
        have q5 : ((0 : Int) - 1).toNat = 0 := rfl
        run_go [Src.Delete, Delete, hp, Mut.res, run_core hf, h, locVals, Mut.bindOut, hk, q0, q1, q2, q3, q5, widen,
          Int.natCast_zero]
    | succ m =>
      replace hk : (l.keyStart == -1) = true ∧ l.start = m + 1 ∨ (l.keyStart == -1) = false ∧ l.keyStart - 1 = (m : Int) + 1 := by
        rcases hk with hk | ⟨hk, hs⟩ | ⟨-, hk⟩
        · exact .inl (by rw [← hst0]; exact hk)
        · exact .inr ⟨hk, by omega⟩
        · omega
      have q1 : ((m : Int) + 1 - 1) = m := by omega
      have q2 : ((m : Int) + 1).toNat = m + 1 := by omega
      have q3 : m + 1 - 1 = m := rfl
      cases h1 : json[m]? with
      | none =>
        rcases hk with ⟨hk, hs⟩ | ⟨hk, hs⟩ <;>
        run_go [Src.Delete, Delete, hp, Mut.res, run_core hf, h, locVals, Mut.bindOut, hk, hs, widen,
          Int.natCast_succ, q1, q2, h1, idx_nat, outOpt]
      | some a =>
        cases h2 : json[l.stop]? with
        | none =>
          cases ha : a == 34 <;> rcases hk with ⟨hk, hs⟩ | ⟨hk, hs⟩ <;>
          run_go [Src.Delete, Delete, hp, Mut.res, run_core hf, h, locVals, Mut.bindOut, hk, hs, widen,
            Int.natCast_succ, q1, q2, h1, idx_nat, outOpt, ha, h2]
        | some b =>
          have hm : Delete json path = delRest json (if a == 34 then m else m + 1) (if b == 34 then l.stop + 1 else l.stop) := by
            rcases hk with ⟨hk, hs⟩ | ⟨hk, hs⟩ <;>
            run_go [Delete, hp, h, Mut.bindOut, hk, hs, widen, Int.natCast_succ, q1, q2, q3, h1, idx_nat, outOpt, h2, delRest]
          rw [hm]
          have e5 := fun en => del_at (fl := fl) (d := d + 1) (path := path) (st := if a == 34 then m else m + 1) (en := en)
            hf' (by split <;> omega) path.length l.keyStart l.start
          simp only [Src.Delete, Stmt.rest] at e5
          rcases hk with ⟨hk, hs⟩ | ⟨hk, hs⟩ <;> cases ha : a == 34 <;> cases hb : b == 34 <;>
            simp only [ha, hs, Int.natCast_succ, if_true, Bool.false_eq_true, if_false] at e5 <;>
            have e6 := e5 l.stop <;> have e7 := e5 (l.stop + 1) <;> simp only [Int.natCast_succ] at e7 <;>
            run_go [Src.Delete, hp, run_core hf, h, locVals, hk, hs, Int.natCast_succ, q1, h1, ha, hb, h2, ↓e6, ↓e7]

end

end Jin.Go
