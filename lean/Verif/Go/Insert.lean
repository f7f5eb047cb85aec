import Verif.Go.Add
/-!
# Go.Insert — `Insert` of `inter_add.go`
-/

namespace Jin.Go

section
variable {fl : FloatLib UInt64} {fuel d : Nat} {sp : Bool} {json : Bytes} {path : List Bytes} {ρ : Env}

theorem Insert_for3 (hf : json.length < fuel) {st : Nat} (hst : st ≤ json.length) (e : Int) :
    exec (ctx fl fuel (d + 1)) fuel Src.Insert.for3 ⟨(), (go% endEdge, .int 0) :: (go% startEdge, .int 0) :: spanEnv json st e ρ⟩ =
    .norm ⟨(), (go% endEdge, .int 0) :: (go% startEdge, .int ((lastNS json 1 st).getD 0 : Nat)) :: spanEnv json st e ρ⟩ := by
  run_go [Src.Insert.for3]
  refine (loop_last (json := json) (lo := 1) (fun i : Int => (⟨(), (go% i, .int i) :: (0, .nil) :: (go% endEdge, .int 0) ::
      (go% startEdge, .int 0) :: spanEnv json st e ρ⟩ : St Unit))
      (fun i => .norm ⟨(), (go% endEdge, .int 0) :: (go% startEdge, .int i) :: spanEnv json st e ρ⟩)
      ?_ ?_ ?_ fuel st hst (by omega)).trans ?_
  · intro i
    have h : ((0 : Int) < i) = (((1 : Nat) : Int) ≤ i) := by simp; omega
    run_go [h]
  · intro i c hc hs
    refine ⟨_, by run_go [Src.Insert.body3, hc, hs]; rfl, by run_go []⟩
  · intro i c hc hs
    run_go [Src.Insert.body3, hc, hs]
  · cases h : lastNS json 1 st <;> rfl

theorem Insert_for4 (hf : json.length < fuel) {e : Nat} (s1 st : Int) :
    exec (ctx fl fuel (d + 1)) fuel Src.Insert.for4 ⟨(), (go% endEdge, .int 0) :: (go% startEdge, .int s1) :: spanEnv json st e ρ⟩ =
    .norm ⟨(), (go% endEdge, .int ((firstNS json e json.length).getD 0 : Nat)) :: (go% startEdge, .int s1) :: spanEnv json st e ρ⟩ := by
  run_go [Src.Insert.for4]
  refine (loop_first (json := json) (hi := json.length) (fun i : Nat => (⟨(), (go% i, .int i) :: (0, .nil) :: (go% endEdge, .int 0) ::
      (go% startEdge, .int s1) :: spanEnv json st e ρ⟩ : St Unit))
      (fun i => .norm ⟨(), (go% endEdge, .int i) :: (go% startEdge, .int s1) :: spanEnv json st e ρ⟩)
      ?_ (Nat.le_refl _) ?_ ?_ fuel e (by omega)).trans ?_
  · intro i
    run_go []
  · intro i c _ hc hs
    refine ⟨_, by run_go [Src.Insert.body4, hc, hs]; rfl, by run_go []; rfl⟩
  · intro i c _ hc hs
    run_go [Src.Insert.body4, hc, hs]
  · cases h : firstNS json e json.length <;> rfl

/-- The end of `Insert`. -/
def insRest (json value : Bytes) (start stop : Nat) : Mut :=
  let (startEdge, endEdge) := edges json start stop
  Mut.bindOut json (idx json startEdge) fun a =>
  Mut.bindOut json (idx json endEdge) fun z =>
    if (a == 91 || a == 123) && a + 2 == z then
      Mut.ofOut (replace json (value ++ [44]) start start)
    else if z == 44 then Mut.ofOut (replace json (value ++ [44]) start start)
    else if a == 44 then
      Mut.ofOut (replace json (44 :: value) ((start : Int) - 1) ((start : Int) - 1))
    else .done json (some (.badJSON start))

theorem ins_tail (v : Option Bytes) (st en : Nat) (k : Val) :
    exec (ctx fl fuel (d + 1)) fuel (Src.Insert.body.rest 13) ⟨(), (go% endEdge, .int ((firstNS json en json.length).getD 0 : Nat)) ::
      (go% startEdge, .int ((lastNS json 1 st).getD 0 : Nat)) :: spanEnv json st en [(go% index, k), (go% value, optBytes v), (go% path, .strs path)]⟩ =
    Mut.res (insRest json (v.getD []) st en) := by
  rw [insRest, edges]
  generalize (firstNS json en json.length).getD 0 = Z
  generalize (lastNS json 1 st).getD 0 = A
  simp only [Src.Insert, Stmt.rest]
  have m1 : ∀ n : Nat, ¬ ((n : Int) + 1 < 0) := by omega
  have m2 : ¬ ((0 : Int) + 1 < 0) := by omega
  cases hA : json[A]? with
  | none => run_go [idx_nat, hA, outOpt, Mut.bindOut, Mut.res]
  | some a =>
    cases hZ : json[Z]? with
    | none =>
      cases h1 : a == 91 <;> cases h2 : a == 123 <;> run_go [idx_nat, hA, hZ, h1, h2, outOpt, Mut.bindOut, Mut.res]
    | some z =>
      cases h1 : a == 91 <;> cases h2 : a == 123 <;> cases h3 : a + 2 == z <;> cases h4 : z == 44 <;> cases h5 : a == 44 <;>
        rcases replace_cases json (v.getD [] ++ [44]) st st with ⟨r, h6⟩ | h6 <;>
        rcases replace_cases json (44 :: v.getD []) ((st : Int) - 1) ((st : Int) - 1) with ⟨r, h7⟩ | h7 <;> cases v <;>
        simp only [Option.getD_none, Option.getD_some, List.nil_append] at h6 h7 <;>
        run_go [idx_nat, hA, hZ, outOpt, Mut.bindOut, Mut.res, Mut.ofOut, h1, h2, h3, h4, h5, h6, h7, optBytes, Option.getD_none, Option.getD_some, m1, m2,
          Int.lt_irrefl]

theorem ins_at {st en : Nat} (hf : json.length < fuel) (hst : st ≤ json.length) (v : Option Bytes) (k : Val) :
    exec (ctx fl fuel (d + 1)) fuel (Src.Insert.body.rest 11) ⟨(), (go% endEdge, .int 0) ::
      (go% startEdge, .int 0) :: spanEnv json st en [(go% index, k), (go% value, optBytes v), (go% path, .strs path)]⟩ =
    Mut.res (insRest json (v.getD []) st en) := by
  rw [← ins_tail (fl := fl) (d := d) (fuel := fuel) (path := path) v st en k]
  simp only [Src.Insert, Stmt.rest]
  rw [exec, Insert_for3 hf hst]
  simp only [Res.andThen]
  rw [exec, Insert_for4 hf]
  rfl

theorem run_Insert' (hf : need json path < fuel) (index : Int) (v : Option Bytes) (hf2 : need json (path ++ [itoa index]) < fuel) :
    (jin fl).fn fuel (d + 3) (go% Insert) true [.bytes json, .int index, optBytes v, .strs path] =
      mutVals (Insert json index (v.getD []) path) := by
  rw [fn_run (g := Src.Insert) rfl]
  refine mut_body rfl ?_
  have hf' : json.length < fuel := by unfold need at hf; omega
  have e1 := Insert_span (fl := fl) (d := d) hf (.int index) (optBytes v)
  simp only [Src.Insert, Stmt.rest, Stmt.first] at e1
  cases h : containerSpan json 91 93 .arrayExpected path with
  | err e =>
    rw [h] at e1
    simp only [spanRes] at e1
    run_go [Src.Insert, Insert, Mut.res, ↓e1, h, Mut.bindOut]
  | panic =>
    rw [h] at e1
    simp only [spanRes] at e1
    run_go [Src.Insert, Insert, Mut.res, ↓e1, h, Mut.bindOut]
  | ok r =>
    obtain ⟨a, b⟩ := r
    rw [h] at e1
    simp only [spanRes] at e1
    have e2 := elem_pred json b
    cases h1 : json[a]? with
    | none => run_go [Src.Insert, Insert, Mut.res, ↓e1, h, Mut.bindOut, bracketsAt, idx_nat, h1, outOpt]
    | some x =>
      cases h2 : x == 91
      · run_go [Src.Insert, Insert, Mut.res, ↓e1, h, Mut.bindOut, bracketsAt, idx_nat, h1, h2, outOpt]
      rcases idx_cases json ((b : Int) - 1) with ⟨y, h3⟩ | h3
      rotate_left
      · run_go [Src.Insert, Insert, Mut.res, ↓e1, h, Mut.bindOut, bracketsAt, idx_nat, h1, h2, outOpt, e2, h3]
      cases h4 : y == 93
      · run_go [Src.Insert, Insert, Mut.res, ↓e1, h, Mut.bindOut, bracketsAt, idx_nat, h1, h2, outOpt, e2, h3, h4]
      cases h5 : core json false (path ++ [itoa index]) with
      | err e =>
        run_go [Src.Insert, Insert, Mut.res, ↓e1, h, Mut.bindOut, bracketsAt, idx_nat, h1, h2, outOpt, e2, h3, h4, run_core hf2, h5, locVals]
      | panic =>
        run_go [Src.Insert, Insert, Mut.res, ↓e1, h, Mut.bindOut, bracketsAt, idx_nat, h1, h2, outOpt, e2, h3, h4, run_core hf2, h5, locVals]
      | ok l =>
        obtain ⟨hspot, -⟩ := core_shape (by simp) h5
        have hle : l.start ≤ json.length := Nat.le_trans hspot.le hspot.len
        obtain ⟨m, hm⟩ : ∃ m, l.start = m + 1 := ⟨l.start - 1, by have := hspot.pos; omega⟩
        have q1 : ((m : Int) + 1 - 1) = m := by omega
        have q3 : m + 1 - 1 = m := rfl
        obtain ⟨w, h6⟩ := getElem?_of_lt (show m < json.length by omega)
        cases h7 : json[l.stop]? with
        | none =>
          cases h8 : w == 34 <;>
          run_go [Src.Insert, Insert, Mut.res, ↓e1, h, Mut.bindOut, bracketsAt, idx_nat, h1, h2, outOpt, e2, h3, h4, run_core hf2, h5, locVals,
            widen, hm, Int.natCast_succ, q1, h6, h7, h8]
        | some z =>
          have hmod : Insert json index (v.getD []) path =
              insRest json (v.getD []) (if w == 34 then m else m + 1) (if z == 34 then l.stop + 1 else l.stop) := by
            run_go [Insert, h, Mut.bindOut, bracketsAt, idx_nat, h1, h2, outOpt, h3, h4, h5, widen, hm, Int.natCast_succ, q1, q3, h6, h7, insRest]
          rw [hmod]
          have e5 := fun en => ins_at (fl := fl) (d := d + 1) (path := path) (st := if w == 34 then m else m + 1) (en := en)
            hf' (by split <;> omega) v (.int index)
          simp only [Src.Insert, Stmt.rest] at e5
          cases hw : w == 34 <;> cases hz : z == 34 <;>
            simp only [hw, Int.natCast_succ, if_true, Bool.false_eq_true, if_false] at e5 <;>
            have e6 := e5 l.stop <;> have e7 := e5 (l.stop + 1) <;> simp only [Int.natCast_succ] at e7 <;>
            run_go [Src.Insert, ↓e1, h1, h2, e2, h3, h4, run_core hf2, h5, locVals, hm, Int.natCast_succ, q1, h6, h7, hw, hz, ↓e6, ↓e7]

@[go_run] theorem run_Insert (hf : need json path < fuel) (index : Int) (v : Bytes) (hf2 : need json (path ++ [itoa index]) < fuel) :
    (jin fl).fn fuel (d + 3) (go% Insert) true [.bytes json, .int index, .bytes v, .strs path] = mutVals (Insert json index v path) :=
  run_Insert' hf index (some v) hf2

end

end Jin.Go
