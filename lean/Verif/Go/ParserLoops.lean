import Verif.Go.ParserM
/-!
# Go.ParserLoops — the loops of the methods of `Parser` that refresh the ancestors
-/

namespace Jin.Go

section
variable {fl : FloatLib UInt64} {fuel d : Nat} {h : NHeap} {json : Bytes}

/-! ### The loop 1 of `Set` -/

abbrev set1Env (p : ParserP) (json : Bytes) (h : NHeap) (cu : Nat) (newVal : Bytes) (path : List Bytes) (c0 q : Nat) (ix : Int) : Env :=
  [(go% index, .int ix), (go% «%5», .int ix), (go% newCore, .ptr cu), (go% «%4», .ptr q), (0, .nil), (go% «%3», .nil), (go% «%2», .ptr c0), (go% err, .nil), (go% curr, .ptr c0), (go% lenv, .int newVal.length), (go% lenp, .int path.length), (0, .nil), (go% heap, .heap h), (go% p.core, .ptr p.core), (go% p.json, .bytes json), (go% newVal, .bytes newVal), (go% path, .strs path)]

theorem set1_body {path : List Bytes} (hf : need json path < fuel) (p : ParserP) (newVal : Bytes) (c0 q : Nat) (ix : Int) (i cu : Nat) (hi : i < path.length - 1) (hh : Closed h) (hcu : cu < h.length) :
    match h[cu]?.bind NodeRec.up with
    | none => exec (ctx fl fuel (d + 3)) fuel Src.Parser.Set.body1 ⟨(), (go% i, .int i) :: (0, .nil) :: set1Env p json h cu newVal path c0 q ix⟩ = .panic
    | some u =>
      match Jin.Get json (path.take (path.length - 1 - i)) with
      | .panic => exec (ctx fl fuel (d + 3)) fuel Src.Parser.Set.body1 ⟨(), (go% i, .int i) :: (0, .nil) :: set1Env p json h cu newVal path c0 q ix⟩ = .panic
      | .err e => exec (ctx fl fuel (d + 3)) fuel Src.Parser.Set.body1 ⟨(), (go% i, .int i) :: (0, .nil) :: set1Env p json h cu newVal path c0 q ix⟩ =
          .ret () [.heap (h.setValue u []), .ptr p.core, .bytes json, .err e]
      | .ok v => (exec (ctx fl fuel (d + 3)) fuel Src.Parser.Set.body1 ⟨(), (go% i, .int i) :: (0, .nil) :: set1Env p json h cu newVal path c0 q ix⟩).goes =
          some ⟨(), (go% i, .int i) :: (0, .nil) :: set1Env p json (h.setValue u v) u newVal path c0 q ix⟩ := by
  obtain ⟨r, hr⟩ := node_at hcu
  have hk : cut path 0 (((path.length : Int) - 1) - i) = .ok (path.take (path.length - 1 - i)) := cut_take path (by omega) (by omega)
  have hg := run_Get (fl := fl) (d := d) (Nat.lt_of_le_of_lt (need_take json path (path.length - 1 - i)) hf)
  cases hu : r.up with
  | none =>
    rw [hr]
    simp only [Option.bind_some, hu]
    cases hx : Jin.Get json (path.take (path.length - 1 - i)) <;> rw [hx] at hg <;>
      run_go [Src.Parser.Set.body1, node_ok hr, hu, hk, hg, hx, oneVal]
  | some u =>
    obtain ⟨x, hx⟩ := node_at ((hh cu r hr).1 u hu)
    have hs : ∀ v, List.set h u { x with value := v } = h.setValue u v := fun v => set_modify (fun r : NodeRec => { r with value := v }) hx
    rw [hr]
    simp only [Option.bind_some, hu]
    cases hg' : Jin.Get json (path.take (path.length - 1 - i)) <;> rw [hg'] at hg <;>
      run_go [Src.Parser.Set.body1, node_ok hr, hu, hk, hg, node_ok hx, hs, oneVal]

theorem set1_for {path : List Bytes} (hf : need json path < fuel) (p : ParserP) (newVal : Bytes) (c0 q : Nat) (ix : Int) (cu : Nat) (hh : Closed h) (hcu : cu < h.length) :
    match climb json (prefixes path 1 (path.length - 1)) cu h with
    | none => exec (ctx fl fuel (d + 3)) fuel Src.Parser.Set.for1 ⟨(), set1Env p json h cu newVal path c0 q ix⟩ = .panic
    | some (h', none) => ∃ cu', exec (ctx fl fuel (d + 3)) fuel Src.Parser.Set.for1 ⟨(), set1Env p json h cu newVal path c0 q ix⟩ =
        .norm ⟨(), set1Env p json h' cu' newVal path c0 q ix⟩
    | some (h', some e) => exec (ctx fl fuel (d + 3)) fuel Src.Parser.Set.for1 ⟨(), set1Env p json h cu newVal path c0 q ix⟩ =
        .ret () [.heap h', .ptr p.core, .bytes json, .err e] := by
  have H := loop_climb (c := fun s => (eval (ctx fl fuel (d + 3)) s.env (.bin .lt (.var (go% i)) (.bin .sub (.var (go% lenp)) (.lit (.int 1))))).bind Val.bool?)
    (post := fun s => exec (ctx fl fuel (d + 3)) fuel (.assign (go% i) (.bin .add (.var (go% i)) (.lit (.int 1)))) s)
    (body := fun s => exec (ctx fl fuel (d + 3)) fuel Src.Parser.Set.body1 s) (json := json) (path := path) (hi := path.length - 1) (top := path.length - 1)
    (fun i cu h => ⟨(), (go% i, .int i) :: (0, .nil) :: set1Env p json h cu newVal path c0 q ix⟩)
    (fun h e => .ret () [.heap h, .ptr p.core, .bytes json, .err e])
    (fun i cu h => by
      run_go []
      exact congrArg _ (decide_eq_decide.2 (by omega))) (fun i cu h => by run_go []; rfl) (fun _ _ => rfl)
    (fun i cu h hi hh hcu => set1_body hf p newVal c0 q ix i cu hi hh hcu)
    fuel 0 cu h hh hcu (Nat.zero_le _) (by simp only [need] at hf; omega)
  have hq : prefixes path 1 (path.length - 1) = (List.range' 0 (path.length - 1 - 0)).map fun i => path.take (path.length - 1 - i) := by
    rw [prefixes_eq]; simp only [show (path.length - 1) + 1 - 1 = path.length - 1 - 0 by omega]
  rw [hq]
  rcases e : climb json ((List.range' 0 (path.length - 1 - 0)).map fun i => path.take (path.length - 1 - i)) cu h with _ | ⟨h', _ | x⟩
  · rw [e] at H
    run_go [Src.Parser.Set.for1]
    exact (congrArg Res.leave H).trans rfl
  · rw [e] at H
    obtain ⟨cu', H⟩ := H
    refine ⟨cu', ?_⟩
    run_go [Src.Parser.Set.for1]
    exact (congrArg Res.leave H).trans rfl
  · rw [e] at H
    run_go [Src.Parser.Set.for1]
    exact (congrArg Res.leave H).trans rfl

/-! ### The loop 2 of `Set` -/

abbrev set2Env (p : ParserP) (json : Bytes) (h : NHeap) (cu : Nat) (newVal : Bytes) (path : List Bytes) (c0 : Nat) : Env :=
  [(go% «%3», .nil), (go% «%2», .ptr c0), (go% err, .nil), (go% curr, .ptr cu), (go% lenv, .int newVal.length), (go% lenp, .int path.length), (0, .nil), (go% heap, .heap h), (go% p.core, .ptr p.core), (go% p.json, .bytes json), (go% newVal, .bytes newVal), (go% path, .strs path)]

theorem set2_body {path : List Bytes} (hf : need json path < fuel) (p : ParserP) (newVal : Bytes) (c0 : Nat) (i cu : Nat) (hi : i < path.length - 1) (hh : Closed h) (hcu : cu < h.length) :
    match h[cu]?.bind NodeRec.up with
    | none => exec (ctx fl fuel (d + 3)) fuel Src.Parser.Set.body2 ⟨(), (go% i, .int i) :: (0, .nil) :: set2Env p json h cu newVal path c0⟩ = .panic
    | some u =>
      match Jin.Get json (path.take (path.length - 1 - i)) with
      | .panic => exec (ctx fl fuel (d + 3)) fuel Src.Parser.Set.body2 ⟨(), (go% i, .int i) :: (0, .nil) :: set2Env p json h cu newVal path c0⟩ = .panic
      | .err e => exec (ctx fl fuel (d + 3)) fuel Src.Parser.Set.body2 ⟨(), (go% i, .int i) :: (0, .nil) :: set2Env p json h cu newVal path c0⟩ =
          .ret () [.heap (h.setValue u []), .ptr p.core, .bytes json, .err e]
      | .ok v => (exec (ctx fl fuel (d + 3)) fuel Src.Parser.Set.body2 ⟨(), (go% i, .int i) :: (0, .nil) :: set2Env p json h cu newVal path c0⟩).goes =
          some ⟨(), (go% i, .int i) :: (0, .nil) :: set2Env p json (h.setValue u v) u newVal path c0⟩ := by
  obtain ⟨r, hr⟩ := node_at hcu
  have hk : cut path 0 (((path.length : Int) - 1) - i) = .ok (path.take (path.length - 1 - i)) := cut_take path (by omega) (by omega)
  have hg := run_Get (fl := fl) (d := d) (Nat.lt_of_le_of_lt (need_take json path (path.length - 1 - i)) hf)
  cases hu : r.up with
  | none =>
    rw [hr]
    simp only [Option.bind_some, hu]
    cases hx : Jin.Get json (path.take (path.length - 1 - i)) <;> rw [hx] at hg <;>
      run_go [Src.Parser.Set.body2, node_ok hr, hu, hk, hg, hx, oneVal]
  | some u =>
    obtain ⟨x, hx⟩ := node_at ((hh cu r hr).1 u hu)
    have hs : ∀ v, List.set h u { x with value := v } = h.setValue u v := fun v => set_modify (fun r : NodeRec => { r with value := v }) hx
    rw [hr]
    simp only [Option.bind_some, hu]
    cases hg' : Jin.Get json (path.take (path.length - 1 - i)) <;> rw [hg'] at hg <;>
      run_go [Src.Parser.Set.body2, node_ok hr, hu, hk, hg, node_ok hx, hs, oneVal]

theorem set2_for {path : List Bytes} (hf : need json path < fuel) (p : ParserP) (newVal : Bytes) (c0 : Nat) (cu : Nat) (hh : Closed h) (hcu : cu < h.length) :
    match climb json (prefixes path 1 (path.length - 1)) cu h with
    | none => exec (ctx fl fuel (d + 3)) fuel Src.Parser.Set.for2 ⟨(), set2Env p json h cu newVal path c0⟩ = .panic
    | some (h', none) => ∃ cu', exec (ctx fl fuel (d + 3)) fuel Src.Parser.Set.for2 ⟨(), set2Env p json h cu newVal path c0⟩ =
        .norm ⟨(), set2Env p json h' cu' newVal path c0⟩
    | some (h', some e) => exec (ctx fl fuel (d + 3)) fuel Src.Parser.Set.for2 ⟨(), set2Env p json h cu newVal path c0⟩ =
        .ret () [.heap h', .ptr p.core, .bytes json, .err e] := by
  have H := loop_climb (c := fun s => (eval (ctx fl fuel (d + 3)) s.env (.bin .lt (.var (go% i)) (.bin .sub (.var (go% lenp)) (.lit (.int 1))))).bind Val.bool?)
    (post := fun s => exec (ctx fl fuel (d + 3)) fuel (.assign (go% i) (.bin .add (.var (go% i)) (.lit (.int 1)))) s)
    (body := fun s => exec (ctx fl fuel (d + 3)) fuel Src.Parser.Set.body2 s) (json := json) (path := path) (hi := path.length - 1) (top := path.length - 1)
    (fun i cu h => ⟨(), (go% i, .int i) :: (0, .nil) :: set2Env p json h cu newVal path c0⟩)
    (fun h e => .ret () [.heap h, .ptr p.core, .bytes json, .err e])
    (fun i cu h => by
      run_go []
      exact congrArg _ (decide_eq_decide.2 (by omega))) (fun i cu h => by run_go []; rfl) (fun _ _ => rfl)
    (fun i cu h hi hh hcu => set2_body hf p newVal c0 i cu hi hh hcu)
    fuel 0 cu h hh hcu (Nat.zero_le _) (by simp only [need] at hf; omega)
  have hq : prefixes path 1 (path.length - 1) = (List.range' 0 (path.length - 1 - 0)).map fun i => path.take (path.length - 1 - i) := by
    rw [prefixes_eq]; simp only [show (path.length - 1) + 1 - 1 = path.length - 1 - 0 by omega]
  rw [hq]
  rcases e : climb json ((List.range' 0 (path.length - 1 - 0)).map fun i => path.take (path.length - 1 - i)) cu h with _ | ⟨h', _ | x⟩
  · rw [e] at H
    run_go [Src.Parser.Set.for2]
    exact (congrArg Res.leave H).trans rfl
  · rw [e] at H
    obtain ⟨cu', H⟩ := H
    refine ⟨cu', ?_⟩
    run_go [Src.Parser.Set.for2]
    exact (congrArg Res.leave H).trans rfl
  · rw [e] at H
    run_go [Src.Parser.Set.for2]
    exact (congrArg Res.leave H).trans rfl

/-! ### The loop 2 of `SetKey` -/

abbrev setKeyEnv (p : ParserP) (json : Bytes) (h : NHeap) (cu : Nat) (newKey : Bytes) (path : List Bytes) (c0 : Nat) : Env :=
  [(go% «%4», .nil), (go% «%3», .ptr c0), (go% err, .nil), (go% curr, .ptr cu), (go% lenv, .int newKey.length), (go% lenp, .int path.length), (0, .nil), (go% heap, .heap h), (go% p.core, .ptr p.core), (go% p.json, .bytes json), (go% newKey, .bytes newKey), (go% path, .strs path)]

theorem setKey_body {path : List Bytes} (hf : need json path < fuel) (p : ParserP) (newKey : Bytes) (c0 : Nat) (i cu : Nat) (hi : i < path.length - 1) (hh : Closed h) (hcu : cu < h.length) :
    match h[cu]?.bind NodeRec.up with
    | none => exec (ctx fl fuel (d + 3)) fuel Src.Parser.SetKey.body2 ⟨(), (go% i, .int i) :: (0, .nil) :: setKeyEnv p json h cu newKey path c0⟩ = .panic
    | some u =>
      match Jin.Get json (path.take (path.length - 1 - i)) with
      | .panic => exec (ctx fl fuel (d + 3)) fuel Src.Parser.SetKey.body2 ⟨(), (go% i, .int i) :: (0, .nil) :: setKeyEnv p json h cu newKey path c0⟩ = .panic
      | .err _ => (exec (ctx fl fuel (d + 3)) fuel Src.Parser.SetKey.body2 ⟨(), (go% i, .int i) :: (0, .nil) :: setKeyEnv p json h cu newKey path c0⟩).goes = some ⟨(), (go% i, .int i) :: (0, .nil) :: setKeyEnv p json (h.setValue u []) u newKey path c0⟩
      | .ok v => (exec (ctx fl fuel (d + 3)) fuel Src.Parser.SetKey.body2 ⟨(), (go% i, .int i) :: (0, .nil) :: setKeyEnv p json h cu newKey path c0⟩).goes =
          some ⟨(), (go% i, .int i) :: (0, .nil) :: setKeyEnv p json (h.setValue u v) u newKey path c0⟩ := by
  obtain ⟨r, hr⟩ := node_at hcu
  have hk : cut path 0 (((path.length : Int) - 1) - i) = .ok (path.take (path.length - 1 - i)) := cut_take path (by omega) (by omega)
  have hg := run_Get (fl := fl) (d := d) (Nat.lt_of_le_of_lt (need_take json path (path.length - 1 - i)) hf)
  cases hu : r.up with
  | none =>
    rw [hr]
    simp only [Option.bind_some, hu]
    cases hx : Jin.Get json (path.take (path.length - 1 - i)) <;> rw [hx] at hg <;>
      run_go [Src.Parser.SetKey.body2, node_ok hr, hu, hk, hg, hx, oneVal]
  | some u =>
    obtain ⟨x, hx⟩ := node_at ((hh cu r hr).1 u hu)
    have hs : ∀ v, List.set h u { x with value := v } = h.setValue u v := fun v => set_modify (fun r : NodeRec => { r with value := v }) hx
    rw [hr]
    simp only [Option.bind_some, hu]
    cases hg' : Jin.Get json (path.take (path.length - 1 - i)) <;> rw [hg'] at hg <;>
      run_go [Src.Parser.SetKey.body2, node_ok hr, hu, hk, hg, node_ok hx, hs, oneVal]

theorem setKey_for {path : List Bytes} (hf : need json path < fuel) (p : ParserP) (newKey : Bytes) (c0 : Nat) (cu : Nat) (hh : Closed h) (hcu : cu < h.length) :
    match climbQuiet json (prefixes path 1 (path.length - 1)) cu h with
    | none => exec (ctx fl fuel (d + 3)) fuel Src.Parser.SetKey.for2 ⟨(), setKeyEnv p json h cu newKey path c0⟩ = .panic
    | some h' => ∃ cu', exec (ctx fl fuel (d + 3)) fuel Src.Parser.SetKey.for2 ⟨(), setKeyEnv p json h cu newKey path c0⟩ =
        .norm ⟨(), setKeyEnv p json h' cu' newKey path c0⟩ := by
  have H := loop_climbQuiet (c := fun s => (eval (ctx fl fuel (d + 3)) s.env (.bin .lt (.var (go% i)) (.bin .sub (.var (go% lenp)) (.lit (.int 1))))).bind Val.bool?)
    (post := fun s => exec (ctx fl fuel (d + 3)) fuel (.assign (go% i) (.bin .add (.var (go% i)) (.lit (.int 1)))) s)
    (body := fun s => exec (ctx fl fuel (d + 3)) fuel Src.Parser.SetKey.body2 s) (json := json) (path := path) (hi := path.length - 1) (top := path.length - 1)
    (fun i cu h => ⟨(), (go% i, .int i) :: (0, .nil) :: setKeyEnv p json h cu newKey path c0⟩)
    (fun i cu h => by
      run_go []
      exact congrArg _ (decide_eq_decide.2 (by omega))) (fun i cu h => by run_go []; rfl)
    (fun i cu h hi hh hcu => setKey_body hf p newKey c0 i cu hi hh hcu)
    fuel 0 cu h hh hcu (Nat.zero_le _) (by simp only [need] at hf; omega)
  have hq : prefixes path 1 (path.length - 1) = (List.range' 0 (path.length - 1 - 0)).map fun i => path.take (path.length - 1 - i) := by
    rw [prefixes_eq]; simp only [show (path.length - 1) + 1 - 1 = path.length - 1 - 0 by omega]
  rw [hq]
  cases e : climbQuiet json ((List.range' 0 (path.length - 1 - 0)).map fun i => path.take (path.length - 1 - i)) cu h with
  | none =>
    rw [e] at H
    run_go [Src.Parser.SetKey.for2]
    exact (congrArg Res.leave H).trans rfl
  | some h' =>
    rw [e] at H
    obtain ⟨cu', H⟩ := H
    refine ⟨cu', ?_⟩
    run_go [Src.Parser.SetKey.for2]
    exact (congrArg Res.leave H).trans rfl

/-! ### The loop 1 of `Delete` -/

abbrev deleteEnv (p : ParserP) (json : Bytes) (h : NHeap) (cu : Nat) (path : List Bytes) (c0 : Nat) : Env :=
  [(go% «%3», .nil), (go% «%2», .ptr c0), (go% lenp, .int path.length), (go% curr, .ptr cu), (go% err, .nil), (0, .nil), (go% heap, .heap h), (go% p.core, .ptr p.core), (go% p.json, .bytes json), (go% path, .strs path)]

theorem delete_body {path : List Bytes} (hf : need json path < fuel) (p : ParserP) (c0 : Nat) (i cu : Nat) (hi : i < path.length - 1) (hh : Closed h) (hcu : cu < h.length) :
    match h[cu]?.bind NodeRec.up with
    | none => exec (ctx fl fuel (d + 3)) fuel Src.Parser.Delete.body1 ⟨(), (go% i, .int i) :: (0, .nil) :: deleteEnv p json h cu path c0⟩ = .panic
    | some u =>
      match Jin.Get json (path.take (path.length - 1 - i)) with
      | .panic => exec (ctx fl fuel (d + 3)) fuel Src.Parser.Delete.body1 ⟨(), (go% i, .int i) :: (0, .nil) :: deleteEnv p json h cu path c0⟩ = .panic
      | .err e => exec (ctx fl fuel (d + 3)) fuel Src.Parser.Delete.body1 ⟨(), (go% i, .int i) :: (0, .nil) :: deleteEnv p json h cu path c0⟩ =
          .ret () [.heap (h.setValue u []), .ptr p.core, .bytes json, .err e]
      | .ok v => (exec (ctx fl fuel (d + 3)) fuel Src.Parser.Delete.body1 ⟨(), (go% i, .int i) :: (0, .nil) :: deleteEnv p json h cu path c0⟩).goes =
          some ⟨(), (go% i, .int i) :: (0, .nil) :: deleteEnv p json (h.setValue u v) u path c0⟩ := by
  obtain ⟨r, hr⟩ := node_at hcu
  have hk : cut path 0 (((path.length : Int) - i) - 1) = .ok (path.take (path.length - 1 - i)) := cut_take path (by omega) (by omega)
  have hg := run_Get (fl := fl) (d := d) (Nat.lt_of_le_of_lt (need_take json path (path.length - 1 - i)) hf)
  cases hu : r.up with
  | none =>
    rw [hr]
    simp only [Option.bind_some, hu]
    cases hx : Jin.Get json (path.take (path.length - 1 - i)) <;> rw [hx] at hg <;>
      run_go [Src.Parser.Delete.body1, node_ok hr, hu, hk, hg, hx, oneVal]
  | some u =>
    obtain ⟨x, hx⟩ := node_at ((hh cu r hr).1 u hu)
    have hs : ∀ v, List.set h u { x with value := v } = h.setValue u v := fun v => set_modify (fun r : NodeRec => { r with value := v }) hx
    rw [hr]
    simp only [Option.bind_some, hu]
    cases hg' : Jin.Get json (path.take (path.length - 1 - i)) <;> rw [hg'] at hg <;>
      run_go [Src.Parser.Delete.body1, node_ok hr, hu, hk, hg, node_ok hx, hs, oneVal]

theorem delete_for {path : List Bytes} (hf : need json path < fuel) (p : ParserP) (c0 : Nat) (cu : Nat) (hh : Closed h) (hcu : cu < h.length) :
    match climb json (prefixes path 1 (path.length - 1)) cu h with
    | none => exec (ctx fl fuel (d + 3)) fuel Src.Parser.Delete.for1 ⟨(), deleteEnv p json h cu path c0⟩ = .panic
    | some (h', none) => ∃ cu', exec (ctx fl fuel (d + 3)) fuel Src.Parser.Delete.for1 ⟨(), deleteEnv p json h cu path c0⟩ =
        .norm ⟨(), deleteEnv p json h' cu' path c0⟩
    | some (h', some e) => exec (ctx fl fuel (d + 3)) fuel Src.Parser.Delete.for1 ⟨(), deleteEnv p json h cu path c0⟩ =
        .ret () [.heap h', .ptr p.core, .bytes json, .err e] := by
  have H := loop_climb (c := fun s => (eval (ctx fl fuel (d + 3)) s.env (.bin .lt (.var (go% i)) (.bin .sub (.var (go% lenp)) (.lit (.int 1))))).bind Val.bool?)
    (post := fun s => exec (ctx fl fuel (d + 3)) fuel (.assign (go% i) (.bin .add (.var (go% i)) (.lit (.int 1)))) s)
    (body := fun s => exec (ctx fl fuel (d + 3)) fuel Src.Parser.Delete.body1 s) (json := json) (path := path) (hi := path.length - 1) (top := path.length - 1)
    (fun i cu h => ⟨(), (go% i, .int i) :: (0, .nil) :: deleteEnv p json h cu path c0⟩)
    (fun h e => .ret () [.heap h, .ptr p.core, .bytes json, .err e])
    (fun i cu h => by
      run_go []
      exact congrArg _ (decide_eq_decide.2 (by omega))) (fun i cu h => by run_go []; rfl) (fun _ _ => rfl)
    (fun i cu h hi hh hcu => delete_body hf p c0 i cu hi hh hcu)
    fuel 0 cu h hh hcu (Nat.zero_le _) (by simp only [need] at hf; omega)
  have hq : prefixes path 1 (path.length - 1) = (List.range' 0 (path.length - 1 - 0)).map fun i => path.take (path.length - 1 - i) := by
    rw [prefixes_eq]; simp only [show (path.length - 1) + 1 - 1 = path.length - 1 - 0 by omega]
  rw [hq]
  rcases e : climb json ((List.range' 0 (path.length - 1 - 0)).map fun i => path.take (path.length - 1 - i)) cu h with _ | ⟨h', _ | x⟩
  · rw [e] at H
    run_go [Src.Parser.Delete.for1]
    exact (congrArg Res.leave H).trans rfl
  · rw [e] at H
    obtain ⟨cu', H⟩ := H
    refine ⟨cu', ?_⟩
    run_go [Src.Parser.Delete.for1]
    exact (congrArg Res.leave H).trans rfl
  · rw [e] at H
    run_go [Src.Parser.Delete.for1]
    exact (congrArg Res.leave H).trans rfl

/-! ### The loop 3 of `AddKeyValue` -/

abbrev addKV3Env (p : ParserP) (json : Bytes) (h : NHeap) (cu : Nat) (js key newVal : Bytes) (path : List Bytes) (c0 q : Nat) : Env :=
  [(go% newNode, .ptr cu), (go% «%12», .ptr q), (0, .nil), (0, .nil), (0, .nil), (go% «%10», .nil), (go% «%9», .ptr c0), (go% err, .nil), (go% json, .bytes js), (go% «%3», .nil), (go% «%2», .bytes js), (go% err, .nil), (go% curr, .ptr c0), (go% lenv, .int key.length), (go% lenp, .int path.length), (0, .nil), (go% heap, .heap h), (go% p.core, .ptr p.core), (go% p.json, .bytes json), (go% key, .bytes key), (go% newVal, .bytes newVal), (go% path, .strs path)]

theorem addKV3_body {path : List Bytes} (hf : need json path < fuel) (p : ParserP) (js key newVal : Bytes) (c0 q : Nat) (i cu : Nat) (hi : i < path.length) (hh : Closed h) (hcu : cu < h.length) :
    match h[cu]?.bind NodeRec.up with
    | none => exec (ctx fl fuel (d + 3)) fuel Src.Parser.AddKeyValue.body3 ⟨(), (go% i, .int i) :: (0, .nil) :: addKV3Env p json h cu js key newVal path c0 q⟩ = .panic
    | some u =>
      match Jin.Get json (path.take (path.length - i)) with
      | .panic => exec (ctx fl fuel (d + 3)) fuel Src.Parser.AddKeyValue.body3 ⟨(), (go% i, .int i) :: (0, .nil) :: addKV3Env p json h cu js key newVal path c0 q⟩ = .panic
      | .err e => exec (ctx fl fuel (d + 3)) fuel Src.Parser.AddKeyValue.body3 ⟨(), (go% i, .int i) :: (0, .nil) :: addKV3Env p json h cu js key newVal path c0 q⟩ =
          .ret () [.heap (h.setValue u []), .ptr p.core, .bytes json, .err e]
      | .ok v => (exec (ctx fl fuel (d + 3)) fuel Src.Parser.AddKeyValue.body3 ⟨(), (go% i, .int i) :: (0, .nil) :: addKV3Env p json h cu js key newVal path c0 q⟩).goes =
          some ⟨(), (go% i, .int i) :: (0, .nil) :: addKV3Env p json (h.setValue u v) u js key newVal path c0 q⟩ := by
  obtain ⟨r, hr⟩ := node_at hcu
  have hk : cut path 0 ((path.length : Int) - i) = .ok (path.take (path.length - i)) := cut_take path (by omega) (by omega)
  have hg := run_Get (fl := fl) (d := d) (Nat.lt_of_le_of_lt (need_take json path (path.length - i)) hf)
  cases hu : r.up with
  | none =>
    rw [hr]
    simp only [Option.bind_some, hu]
    cases hx : Jin.Get json (path.take (path.length - i)) <;> rw [hx] at hg <;>
      run_go [Src.Parser.AddKeyValue.body3, node_ok hr, hu, hk, hg, hx, oneVal]
  | some u =>
    obtain ⟨x, hx⟩ := node_at ((hh cu r hr).1 u hu)
    have hs : ∀ v, List.set h u { x with value := v } = h.setValue u v := fun v => set_modify (fun r : NodeRec => { r with value := v }) hx
    rw [hr]
    simp only [Option.bind_some, hu]
    cases hg' : Jin.Get json (path.take (path.length - i)) <;> rw [hg'] at hg <;>
      run_go [Src.Parser.AddKeyValue.body3, node_ok hr, hu, hk, hg, node_ok hx, hs, oneVal]

theorem addKV3_for {path : List Bytes} (hf : need json path < fuel) (p : ParserP) (js key newVal : Bytes) (c0 q : Nat) (cu : Nat) (hh : Closed h) (hcu : cu < h.length) :
    match climb json (prefixes path 1 path.length) cu h with
    | none => exec (ctx fl fuel (d + 3)) fuel Src.Parser.AddKeyValue.for3 ⟨(), addKV3Env p json h cu js key newVal path c0 q⟩ = .panic
    | some (h', none) => ∃ cu', exec (ctx fl fuel (d + 3)) fuel Src.Parser.AddKeyValue.for3 ⟨(), addKV3Env p json h cu js key newVal path c0 q⟩ =
        .norm ⟨(), addKV3Env p json h' cu' js key newVal path c0 q⟩
    | some (h', some e) => exec (ctx fl fuel (d + 3)) fuel Src.Parser.AddKeyValue.for3 ⟨(), addKV3Env p json h cu js key newVal path c0 q⟩ =
        .ret () [.heap h', .ptr p.core, .bytes json, .err e] := by
  have H := loop_climb (c := fun s => (eval (ctx fl fuel (d + 3)) s.env (.bin .lt (.var (go% i)) (.var (go% lenp)))).bind Val.bool?)
    (post := fun s => exec (ctx fl fuel (d + 3)) fuel (.assign (go% i) (.bin .add (.var (go% i)) (.lit (.int 1)))) s)
    (body := fun s => exec (ctx fl fuel (d + 3)) fuel Src.Parser.AddKeyValue.body3 s) (json := json) (path := path) (hi := path.length) (top := path.length)
    (fun i cu h => ⟨(), (go% i, .int i) :: (0, .nil) :: addKV3Env p json h cu js key newVal path c0 q⟩)
    (fun h e => .ret () [.heap h, .ptr p.core, .bytes json, .err e])
    (fun i cu h => by run_go []) (fun i cu h => by run_go []; rfl) (fun _ _ => rfl)
    (fun i cu h hi hh hcu => addKV3_body hf p js key newVal c0 q i cu hi hh hcu)
    fuel 0 cu h hh hcu (Nat.zero_le _) (by simp only [need] at hf; omega)
  have hq : prefixes path 1 path.length = (List.range' 0 (path.length - 0)).map fun i => path.take (path.length - i) := by
    rw [prefixes_eq]; simp only [show path.length + 1 - 1 = path.length - 0 by omega]
  rw [hq]
  rcases e : climb json ((List.range' 0 (path.length - 0)).map fun i => path.take (path.length - i)) cu h with _ | ⟨h', _ | x⟩
  · rw [e] at H
    run_go [Src.Parser.AddKeyValue.for3]
    exact (congrArg Res.leave H).trans rfl
  · rw [e] at H
    obtain ⟨cu', H⟩ := H
    refine ⟨cu', ?_⟩
    run_go [Src.Parser.AddKeyValue.for3]
    exact (congrArg Res.leave H).trans rfl
  · rw [e] at H
    run_go [Src.Parser.AddKeyValue.for3]
    exact (congrArg Res.leave H).trans rfl

/-! ### The loop 4 of `AddKeyValue` -/

abbrev addKV4Env (p : ParserP) (json : Bytes) (h : NHeap) (cu : Nat) (js key newVal : Bytes) (path : List Bytes) (c0 q : Nat) : Env :=
  [(go% newNode, .ptr cu), (go% «%15», .ptr q), (0, .nil), (0, .nil), (go% «%10», .nil), (go% «%9», .ptr c0), (go% err, .nil), (go% json, .bytes js), (go% «%3», .nil), (go% «%2», .bytes js), (go% err, .nil), (go% curr, .ptr c0), (go% lenv, .int key.length), (go% lenp, .int path.length), (0, .nil), (go% heap, .heap h), (go% p.core, .ptr p.core), (go% p.json, .bytes json), (go% key, .bytes key), (go% newVal, .bytes newVal), (go% path, .strs path)]

theorem addKV4_body {path : List Bytes} (hf : need json path < fuel) (p : ParserP) (js key newVal : Bytes) (c0 q : Nat) (i cu : Nat) (hi : i < path.length) (hh : Closed h) (hcu : cu < h.length) :
    match h[cu]?.bind NodeRec.up with
    | none => exec (ctx fl fuel (d + 3)) fuel Src.Parser.AddKeyValue.body4 ⟨(), (go% i, .int i) :: (0, .nil) :: addKV4Env p json h cu js key newVal path c0 q⟩ = .panic
    | some u =>
      match Jin.Get json (path.take (path.length - i)) with
      | .panic => exec (ctx fl fuel (d + 3)) fuel Src.Parser.AddKeyValue.body4 ⟨(), (go% i, .int i) :: (0, .nil) :: addKV4Env p json h cu js key newVal path c0 q⟩ = .panic
      | .err e => exec (ctx fl fuel (d + 3)) fuel Src.Parser.AddKeyValue.body4 ⟨(), (go% i, .int i) :: (0, .nil) :: addKV4Env p json h cu js key newVal path c0 q⟩ =
          .ret () [.heap (h.setValue u []), .ptr p.core, .bytes json, .err e]
      | .ok v => (exec (ctx fl fuel (d + 3)) fuel Src.Parser.AddKeyValue.body4 ⟨(), (go% i, .int i) :: (0, .nil) :: addKV4Env p json h cu js key newVal path c0 q⟩).goes =
          some ⟨(), (go% i, .int i) :: (0, .nil) :: addKV4Env p json (h.setValue u v) u js key newVal path c0 q⟩ := by
  obtain ⟨r, hr⟩ := node_at hcu
  have hk : cut path 0 ((path.length : Int) - i) = .ok (path.take (path.length - i)) := cut_take path (by omega) (by omega)
  have hg := run_Get (fl := fl) (d := d) (Nat.lt_of_le_of_lt (need_take json path (path.length - i)) hf)
  cases hu : r.up with
  | none =>
    rw [hr]
    simp only [Option.bind_some, hu]
    cases hx : Jin.Get json (path.take (path.length - i)) <;> rw [hx] at hg <;>
      run_go [Src.Parser.AddKeyValue.body4, node_ok hr, hu, hk, hg, hx, oneVal]
  | some u =>
    obtain ⟨x, hx⟩ := node_at ((hh cu r hr).1 u hu)
    have hs : ∀ v, List.set h u { x with value := v } = h.setValue u v := fun v => set_modify (fun r : NodeRec => { r with value := v }) hx
    rw [hr]
    simp only [Option.bind_some, hu]
    cases hg' : Jin.Get json (path.take (path.length - i)) <;> rw [hg'] at hg <;>
      run_go [Src.Parser.AddKeyValue.body4, node_ok hr, hu, hk, hg, node_ok hx, hs, oneVal]

theorem addKV4_for {path : List Bytes} (hf : need json path < fuel) (p : ParserP) (js key newVal : Bytes) (c0 q : Nat) (cu : Nat) (hh : Closed h) (hcu : cu < h.length) :
    match climb json (prefixes path 1 path.length) cu h with
    | none => exec (ctx fl fuel (d + 3)) fuel Src.Parser.AddKeyValue.for4 ⟨(), addKV4Env p json h cu js key newVal path c0 q⟩ = .panic
    | some (h', none) => ∃ cu', exec (ctx fl fuel (d + 3)) fuel Src.Parser.AddKeyValue.for4 ⟨(), addKV4Env p json h cu js key newVal path c0 q⟩ =
        .norm ⟨(), addKV4Env p json h' cu' js key newVal path c0 q⟩
    | some (h', some e) => exec (ctx fl fuel (d + 3)) fuel Src.Parser.AddKeyValue.for4 ⟨(), addKV4Env p json h cu js key newVal path c0 q⟩ =
        .ret () [.heap h', .ptr p.core, .bytes json, .err e] := by
  have H := loop_climb (c := fun s => (eval (ctx fl fuel (d + 3)) s.env (.bin .lt (.var (go% i)) (.var (go% lenp)))).bind Val.bool?)
    (post := fun s => exec (ctx fl fuel (d + 3)) fuel (.assign (go% i) (.bin .add (.var (go% i)) (.lit (.int 1)))) s)
    (body := fun s => exec (ctx fl fuel (d + 3)) fuel Src.Parser.AddKeyValue.body4 s) (json := json) (path := path) (hi := path.length) (top := path.length)
    (fun i cu h => ⟨(), (go% i, .int i) :: (0, .nil) :: addKV4Env p json h cu js key newVal path c0 q⟩)
    (fun h e => .ret () [.heap h, .ptr p.core, .bytes json, .err e])
    (fun i cu h => by run_go []) (fun i cu h => by run_go []; rfl) (fun _ _ => rfl)
    (fun i cu h hi hh hcu => addKV4_body hf p js key newVal c0 q i cu hi hh hcu)
    fuel 0 cu h hh hcu (Nat.zero_le _) (by simp only [need] at hf; omega)
  have hq : prefixes path 1 path.length = (List.range' 0 (path.length - 0)).map fun i => path.take (path.length - i) := by
    rw [prefixes_eq]; simp only [show path.length + 1 - 1 = path.length - 0 by omega]
  rw [hq]
  rcases e : climb json ((List.range' 0 (path.length - 0)).map fun i => path.take (path.length - i)) cu h with _ | ⟨h', _ | x⟩
  · rw [e] at H
    run_go [Src.Parser.AddKeyValue.for4]
    exact (congrArg Res.leave H).trans rfl
  · rw [e] at H
    obtain ⟨cu', H⟩ := H
    refine ⟨cu', ?_⟩
    run_go [Src.Parser.AddKeyValue.for4]
    exact (congrArg Res.leave H).trans rfl
  · rw [e] at H
    run_go [Src.Parser.AddKeyValue.for4]
    exact (congrArg Res.leave H).trans rfl

/-! ### The loop 1 of `Add` -/

abbrev add1Env (p : ParserP) (json : Bytes) (h : NHeap) (cu : Nat) (js newVal : Bytes) (path : List Bytes) (c0 q : Nat) (ix : Int) : Env :=
  [(go% index, .int ix), (go% newNode, .ptr cu), (go% «%10», .ptr q), (0, .nil), (0, .nil), (0, .nil), (go% «%9», .nil), (go% «%8», .ptr c0), (go% err, .nil), (go% json, .bytes js), (go% «%3», .nil), (go% «%2», .bytes js), (go% err, .nil), (go% curr, .ptr c0), (go% lenv, .int newVal.length), (go% lenp, .int path.length), (0, .nil), (go% heap, .heap h), (go% p.core, .ptr p.core), (go% p.json, .bytes json), (go% newVal, .bytes newVal), (go% path, .strs path)]

theorem add1_body {path : List Bytes} (hf : need json path < fuel) (p : ParserP) (js newVal : Bytes) (c0 q : Nat) (ix : Int) (i cu : Nat) (hi : i < path.length - 1) (hh : Closed h) (hcu : cu < h.length) :
    match h[cu]?.bind NodeRec.up with
    | none => exec (ctx fl fuel (d + 3)) fuel Src.Parser.Add.body1 ⟨(), (go% i, .int i) :: (0, .nil) :: add1Env p json h cu js newVal path c0 q ix⟩ = .panic
    | some u =>
      match Jin.Get json (path.take (path.length - i)) with
      | .panic => exec (ctx fl fuel (d + 3)) fuel Src.Parser.Add.body1 ⟨(), (go% i, .int i) :: (0, .nil) :: add1Env p json h cu js newVal path c0 q ix⟩ = .panic
      | .err e => exec (ctx fl fuel (d + 3)) fuel Src.Parser.Add.body1 ⟨(), (go% i, .int i) :: (0, .nil) :: add1Env p json h cu js newVal path c0 q ix⟩ =
          .ret () [.heap (h.setValue u []), .ptr p.core, .bytes json, .err e]
      | .ok v => (exec (ctx fl fuel (d + 3)) fuel Src.Parser.Add.body1 ⟨(), (go% i, .int i) :: (0, .nil) :: add1Env p json h cu js newVal path c0 q ix⟩).goes =
          some ⟨(), (go% i, .int i) :: (0, .nil) :: add1Env p json (h.setValue u v) u js newVal path c0 q ix⟩ := by
  obtain ⟨r, hr⟩ := node_at hcu
  have hk : cut path 0 ((path.length : Int) - i) = .ok (path.take (path.length - i)) := cut_take path (by omega) (by omega)
  have hg := run_Get (fl := fl) (d := d) (Nat.lt_of_le_of_lt (need_take json path (path.length - i)) hf)
  cases hu : r.up with
  | none =>
    rw [hr]
    simp only [Option.bind_some, hu]
    cases hx : Jin.Get json (path.take (path.length - i)) <;> rw [hx] at hg <;>
      run_go [Src.Parser.Add.body1, node_ok hr, hu, hk, hg, hx, oneVal]
  | some u =>
    obtain ⟨x, hx⟩ := node_at ((hh cu r hr).1 u hu)
    have hs : ∀ v, List.set h u { x with value := v } = h.setValue u v := fun v => set_modify (fun r : NodeRec => { r with value := v }) hx
    rw [hr]
    simp only [Option.bind_some, hu]
    cases hg' : Jin.Get json (path.take (path.length - i)) <;> rw [hg'] at hg <;>
      run_go [Src.Parser.Add.body1, node_ok hr, hu, hk, hg, node_ok hx, hs, oneVal]

theorem add1_for {path : List Bytes} (hf : need json path < fuel) (p : ParserP) (js newVal : Bytes) (c0 q : Nat) (ix : Int) (cu : Nat) (hh : Closed h) (hcu : cu < h.length) :
    match climb json (prefixes path 2 path.length) cu h with
    | none => exec (ctx fl fuel (d + 3)) fuel Src.Parser.Add.for1 ⟨(), add1Env p json h cu js newVal path c0 q ix⟩ = .panic
    | some (h', none) => ∃ cu', exec (ctx fl fuel (d + 3)) fuel Src.Parser.Add.for1 ⟨(), add1Env p json h cu js newVal path c0 q ix⟩ =
        .norm ⟨(), add1Env p json h' cu' js newVal path c0 q ix⟩
    | some (h', some e) => exec (ctx fl fuel (d + 3)) fuel Src.Parser.Add.for1 ⟨(), add1Env p json h cu js newVal path c0 q ix⟩ =
        .ret () [.heap h', .ptr p.core, .bytes json, .err e] := by
  have H := loop_climb (c := fun s => (eval (ctx fl fuel (d + 3)) s.env (.bin .lt (.var (go% i)) (.bin .sub (.var (go% lenp)) (.lit (.int 1))))).bind Val.bool?)
    (post := fun s => exec (ctx fl fuel (d + 3)) fuel (.assign (go% i) (.bin .add (.var (go% i)) (.lit (.int 1)))) s)
    (body := fun s => exec (ctx fl fuel (d + 3)) fuel Src.Parser.Add.body1 s) (json := json) (path := path) (hi := path.length - 1) (top := path.length)
    (fun i cu h => ⟨(), (go% i, .int i) :: (0, .nil) :: add1Env p json h cu js newVal path c0 q ix⟩)
    (fun h e => .ret () [.heap h, .ptr p.core, .bytes json, .err e])
    (fun i cu h => by
      run_go []
      exact congrArg _ (decide_eq_decide.2 (by omega))) (fun i cu h => by run_go []; rfl) (fun _ _ => rfl)
    (fun i cu h hi hh hcu => add1_body hf p js newVal c0 q ix i cu hi hh hcu)
    fuel 0 cu h hh hcu (Nat.zero_le _) (by simp only [need] at hf; omega)
  have hq : prefixes path 2 path.length = (List.range' 0 (path.length - 1 - 0)).map fun i => path.take (path.length - i) := by
    rw [prefixes_eq]; simp only [show path.length + 1 - 2 = path.length - 1 - 0 by omega]
  rw [hq]
  rcases e : climb json ((List.range' 0 (path.length - 1 - 0)).map fun i => path.take (path.length - i)) cu h with _ | ⟨h', _ | x⟩
  · rw [e] at H
    run_go [Src.Parser.Add.for1]
    exact (congrArg Res.leave H).trans rfl
  · rw [e] at H
    obtain ⟨cu', H⟩ := H
    refine ⟨cu', ?_⟩
    run_go [Src.Parser.Add.for1]
    exact (congrArg Res.leave H).trans rfl
  · rw [e] at H
    run_go [Src.Parser.Add.for1]
    exact (congrArg Res.leave H).trans rfl

/-! ### The loop 2 of `Add` -/

abbrev add2Env (p : ParserP) (json : Bytes) (h : NHeap) (cu : Nat) (js newVal : Bytes) (path : List Bytes) (c0 q : Nat) (ix : Int) : Env :=
  [(go% index, .int ix), (go% newNode, .ptr cu), (go% «%13», .ptr q), (0, .nil), (0, .nil), (go% «%9», .nil), (go% «%8», .ptr c0), (go% err, .nil), (go% json, .bytes js), (go% «%3», .nil), (go% «%2», .bytes js), (go% err, .nil), (go% curr, .ptr c0), (go% lenv, .int newVal.length), (go% lenp, .int path.length), (0, .nil), (go% heap, .heap h), (go% p.core, .ptr p.core), (go% p.json, .bytes json), (go% newVal, .bytes newVal), (go% path, .strs path)]

theorem add2_body {path : List Bytes} (hf : need json path < fuel) (p : ParserP) (js newVal : Bytes) (c0 q : Nat) (ix : Int) (i cu : Nat) (hi : i < path.length) (hh : Closed h) (hcu : cu < h.length) :
    match h[cu]?.bind NodeRec.up with
    | none => exec (ctx fl fuel (d + 3)) fuel Src.Parser.Add.body2 ⟨(), (go% i, .int i) :: (0, .nil) :: add2Env p json h cu js newVal path c0 q ix⟩ = .panic
    | some u =>
      match Jin.Get json (path.take (path.length - i)) with
      | .panic => exec (ctx fl fuel (d + 3)) fuel Src.Parser.Add.body2 ⟨(), (go% i, .int i) :: (0, .nil) :: add2Env p json h cu js newVal path c0 q ix⟩ = .panic
      | .err e => exec (ctx fl fuel (d + 3)) fuel Src.Parser.Add.body2 ⟨(), (go% i, .int i) :: (0, .nil) :: add2Env p json h cu js newVal path c0 q ix⟩ =
          .ret () [.heap (h.setValue u []), .ptr p.core, .bytes json, .err e]
      | .ok v => (exec (ctx fl fuel (d + 3)) fuel Src.Parser.Add.body2 ⟨(), (go% i, .int i) :: (0, .nil) :: add2Env p json h cu js newVal path c0 q ix⟩).goes =
          some ⟨(), (go% i, .int i) :: (0, .nil) :: add2Env p json (h.setValue u v) u js newVal path c0 q ix⟩ := by
  obtain ⟨r, hr⟩ := node_at hcu
  have hk : cut path 0 ((path.length : Int) - i) = .ok (path.take (path.length - i)) := cut_take path (by omega) (by omega)
  have hg := run_Get (fl := fl) (d := d) (Nat.lt_of_le_of_lt (need_take json path (path.length - i)) hf)
  cases hu : r.up with
  | none =>
    rw [hr]
    simp only [Option.bind_some, hu]
    cases hx : Jin.Get json (path.take (path.length - i)) <;> rw [hx] at hg <;>
      run_go [Src.Parser.Add.body2, node_ok hr, hu, hk, hg, hx, oneVal]
  | some u =>
    obtain ⟨x, hx⟩ := node_at ((hh cu r hr).1 u hu)
    have hs : ∀ v, List.set h u { x with value := v } = h.setValue u v := fun v => set_modify (fun r : NodeRec => { r with value := v }) hx
    rw [hr]
    simp only [Option.bind_some, hu]
    cases hg' : Jin.Get json (path.take (path.length - i)) <;> rw [hg'] at hg <;>
      run_go [Src.Parser.Add.body2, node_ok hr, hu, hk, hg, node_ok hx, hs, oneVal]

theorem add2_for {path : List Bytes} (hf : need json path < fuel) (p : ParserP) (js newVal : Bytes) (c0 q : Nat) (ix : Int) (cu : Nat) (hh : Closed h) (hcu : cu < h.length) :
    match climb json (prefixes path 1 path.length) cu h with
    | none => exec (ctx fl fuel (d + 3)) fuel Src.Parser.Add.for2 ⟨(), add2Env p json h cu js newVal path c0 q ix⟩ = .panic
    | some (h', none) => ∃ cu', exec (ctx fl fuel (d + 3)) fuel Src.Parser.Add.for2 ⟨(), add2Env p json h cu js newVal path c0 q ix⟩ =
        .norm ⟨(), add2Env p json h' cu' js newVal path c0 q ix⟩
    | some (h', some e) => exec (ctx fl fuel (d + 3)) fuel Src.Parser.Add.for2 ⟨(), add2Env p json h cu js newVal path c0 q ix⟩ =
        .ret () [.heap h', .ptr p.core, .bytes json, .err e] := by
  have H := loop_climb (c := fun s => (eval (ctx fl fuel (d + 3)) s.env (.bin .lt (.var (go% i)) (.var (go% lenp)))).bind Val.bool?)
    (post := fun s => exec (ctx fl fuel (d + 3)) fuel (.assign (go% i) (.bin .add (.var (go% i)) (.lit (.int 1)))) s)
    (body := fun s => exec (ctx fl fuel (d + 3)) fuel Src.Parser.Add.body2 s) (json := json) (path := path) (hi := path.length) (top := path.length)
    (fun i cu h => ⟨(), (go% i, .int i) :: (0, .nil) :: add2Env p json h cu js newVal path c0 q ix⟩)
    (fun h e => .ret () [.heap h, .ptr p.core, .bytes json, .err e])
    (fun i cu h => by run_go []) (fun i cu h => by run_go []; rfl) (fun _ _ => rfl)
    (fun i cu h hi hh hcu => add2_body hf p js newVal c0 q ix i cu hi hh hcu)
    fuel 0 cu h hh hcu (Nat.zero_le _) (by simp only [need] at hf; omega)
  have hq : prefixes path 1 path.length = (List.range' 0 (path.length - 0)).map fun i => path.take (path.length - i) := by
    rw [prefixes_eq]; simp only [show path.length + 1 - 1 = path.length - 0 by omega]
  rw [hq]
  rcases e : climb json ((List.range' 0 (path.length - 0)).map fun i => path.take (path.length - i)) cu h with _ | ⟨h', _ | x⟩
  · rw [e] at H
    run_go [Src.Parser.Add.for2]
    exact (congrArg Res.leave H).trans rfl
  · rw [e] at H
    obtain ⟨cu', H⟩ := H
    refine ⟨cu', ?_⟩
    run_go [Src.Parser.Add.for2]
    exact (congrArg Res.leave H).trans rfl
  · rw [e] at H
    run_go [Src.Parser.Add.for2]
    exact (congrArg Res.leave H).trans rfl

/-! ### The loop 1 of `Insert` -/

abbrev insert1Env (p : ParserP) (json : Bytes) (h : NHeap) (cu : Nat) (js newVal : Bytes) (path : List Bytes) (c0 q : Nat) (ix : Int) : Env :=
  [(go% «%15», .nil), (go% newNode, .ptr cu), (go% «%14», .ptr q), (0, .nil), (0, .nil), (0, .nil), (go% «%13», .nil), (go% «%12», .ptr c0), (go% err, .nil), (go% json, .bytes js), (go% «%3», .nil), (go% «%2», .bytes js), (go% err, .nil), (go% curr, .ptr c0), (go% lenv, .int newVal.length), (go% lenp, .int path.length), (0, .nil), (go% heap, .heap h), (go% p.core, .ptr p.core), (go% p.json, .bytes json), (go% newIndex, .int ix), (go% newVal, .bytes newVal), (go% path, .strs path)]

theorem insert1_body {path : List Bytes} (hf : need json path < fuel) (p : ParserP) (js newVal : Bytes) (c0 q : Nat) (ix : Int) (i cu : Nat) (hi : i < path.length) (hh : Closed h) (hcu : cu < h.length) :
    match h[cu]?.bind NodeRec.up with
    | none => exec (ctx fl fuel (d + 3)) fuel Src.Parser.Insert.body1 ⟨(), (go% i, .int i) :: (0, .nil) :: insert1Env p json h cu js newVal path c0 q ix⟩ = .panic
    | some u =>
      match Jin.Get json (path.take (path.length - i)) with
      | .panic => exec (ctx fl fuel (d + 3)) fuel Src.Parser.Insert.body1 ⟨(), (go% i, .int i) :: (0, .nil) :: insert1Env p json h cu js newVal path c0 q ix⟩ = .panic
      | .err e => exec (ctx fl fuel (d + 3)) fuel Src.Parser.Insert.body1 ⟨(), (go% i, .int i) :: (0, .nil) :: insert1Env p json h cu js newVal path c0 q ix⟩ =
          .ret () [.heap (h.setValue u []), .ptr p.core, .bytes json, .err e]
      | .ok v => (exec (ctx fl fuel (d + 3)) fuel Src.Parser.Insert.body1 ⟨(), (go% i, .int i) :: (0, .nil) :: insert1Env p json h cu js newVal path c0 q ix⟩).goes =
          some ⟨(), (go% i, .int i) :: (0, .nil) :: insert1Env p json (h.setValue u v) u js newVal path c0 q ix⟩ := by
  obtain ⟨r, hr⟩ := node_at hcu
  have hk : cut path 0 ((path.length : Int) - i) = .ok (path.take (path.length - i)) := cut_take path (by omega) (by omega)
  have hg := run_Get (fl := fl) (d := d) (Nat.lt_of_le_of_lt (need_take json path (path.length - i)) hf)
  cases hu : r.up with
  | none =>
    rw [hr]
    simp only [Option.bind_some, hu]
    cases hx : Jin.Get json (path.take (path.length - i)) <;> rw [hx] at hg <;>
      run_go [Src.Parser.Insert.body1, node_ok hr, hu, hk, hg, hx, oneVal]
  | some u =>
    obtain ⟨x, hx⟩ := node_at ((hh cu r hr).1 u hu)
    have hs : ∀ v, List.set h u { x with value := v } = h.setValue u v := fun v => set_modify (fun r : NodeRec => { r with value := v }) hx
    rw [hr]
    simp only [Option.bind_some, hu]
    cases hg' : Jin.Get json (path.take (path.length - i)) <;> rw [hg'] at hg <;>
      run_go [Src.Parser.Insert.body1, node_ok hr, hu, hk, hg, node_ok hx, hs, oneVal]

theorem insert1_for {path : List Bytes} (hf : need json path < fuel) (p : ParserP) (js newVal : Bytes) (c0 q : Nat) (ix : Int) (cu : Nat) (hh : Closed h) (hcu : cu < h.length) :
    match climb json (prefixes path 1 path.length) cu h with
    | none => exec (ctx fl fuel (d + 3)) fuel Src.Parser.Insert.for1 ⟨(), insert1Env p json h cu js newVal path c0 q ix⟩ = .panic
    | some (h', none) => ∃ cu', exec (ctx fl fuel (d + 3)) fuel Src.Parser.Insert.for1 ⟨(), insert1Env p json h cu js newVal path c0 q ix⟩ =
        .norm ⟨(), insert1Env p json h' cu' js newVal path c0 q ix⟩
    | some (h', some e) => exec (ctx fl fuel (d + 3)) fuel Src.Parser.Insert.for1 ⟨(), insert1Env p json h cu js newVal path c0 q ix⟩ =
        .ret () [.heap h', .ptr p.core, .bytes json, .err e] := by
  have H := loop_climb (c := fun s => (eval (ctx fl fuel (d + 3)) s.env (.bin .lt (.var (go% i)) (.var (go% lenp)))).bind Val.bool?)
    (post := fun s => exec (ctx fl fuel (d + 3)) fuel (.assign (go% i) (.bin .add (.var (go% i)) (.lit (.int 1)))) s)
    (body := fun s => exec (ctx fl fuel (d + 3)) fuel Src.Parser.Insert.body1 s) (json := json) (path := path) (hi := path.length) (top := path.length)
    (fun i cu h => ⟨(), (go% i, .int i) :: (0, .nil) :: insert1Env p json h cu js newVal path c0 q ix⟩)
    (fun h e => .ret () [.heap h, .ptr p.core, .bytes json, .err e])
    (fun i cu h => by run_go []) (fun i cu h => by run_go []; rfl) (fun _ _ => rfl)
    (fun i cu h hi hh hcu => insert1_body hf p js newVal c0 q ix i cu hi hh hcu)
    fuel 0 cu h hh hcu (Nat.zero_le _) (by simp only [need] at hf; omega)
  have hq : prefixes path 1 path.length = (List.range' 0 (path.length - 0)).map fun i => path.take (path.length - i) := by
    rw [prefixes_eq]; simp only [show path.length + 1 - 1 = path.length - 0 by omega]
  rw [hq]
  rcases e : climb json ((List.range' 0 (path.length - 0)).map fun i => path.take (path.length - i)) cu h with _ | ⟨h', _ | x⟩
  · rw [e] at H
    run_go [Src.Parser.Insert.for1]
    exact (congrArg Res.leave H).trans rfl
  · rw [e] at H
    obtain ⟨cu', H⟩ := H
    refine ⟨cu', ?_⟩
    run_go [Src.Parser.Insert.for1]
    exact (congrArg Res.leave H).trans rfl
  · rw [e] at H
    run_go [Src.Parser.Insert.for1]
    exact (congrArg Res.leave H).trans rfl

/-! ### The loop 2 of `Insert` -/

abbrev insert2Env (p : ParserP) (json : Bytes) (h : NHeap) (cu : Nat) (js newVal : Bytes) (path : List Bytes) (c0 q : Nat) (ix : Int) : Env :=
  [(go% «%19», .nil), (go% newNode, .ptr cu), (go% «%18», .ptr q), (0, .nil), (0, .nil), (go% «%13», .nil), (go% «%12», .ptr c0), (go% err, .nil), (go% json, .bytes js), (go% «%3», .nil), (go% «%2», .bytes js), (go% err, .nil), (go% curr, .ptr c0), (go% lenv, .int newVal.length), (go% lenp, .int path.length), (0, .nil), (go% heap, .heap h), (go% p.core, .ptr p.core), (go% p.json, .bytes json), (go% newIndex, .int ix), (go% newVal, .bytes newVal), (go% path, .strs path)]

theorem insert2_body {path : List Bytes} (hf : need json path < fuel) (p : ParserP) (js newVal : Bytes) (c0 q : Nat) (ix : Int) (i cu : Nat) (hi : i < path.length) (hh : Closed h) (hcu : cu < h.length) :
    match h[cu]?.bind NodeRec.up with
    | none => exec (ctx fl fuel (d + 3)) fuel Src.Parser.Insert.body2 ⟨(), (go% i, .int i) :: (0, .nil) :: insert2Env p json h cu js newVal path c0 q ix⟩ = .panic
    | some u =>
      match Jin.Get json (path.take (path.length - i)) with
      | .panic => exec (ctx fl fuel (d + 3)) fuel Src.Parser.Insert.body2 ⟨(), (go% i, .int i) :: (0, .nil) :: insert2Env p json h cu js newVal path c0 q ix⟩ = .panic
      | .err e => exec (ctx fl fuel (d + 3)) fuel Src.Parser.Insert.body2 ⟨(), (go% i, .int i) :: (0, .nil) :: insert2Env p json h cu js newVal path c0 q ix⟩ =
          .ret () [.heap (h.setValue u []), .ptr p.core, .bytes json, .err e]
      | .ok v => (exec (ctx fl fuel (d + 3)) fuel Src.Parser.Insert.body2 ⟨(), (go% i, .int i) :: (0, .nil) :: insert2Env p json h cu js newVal path c0 q ix⟩).goes =
          some ⟨(), (go% i, .int i) :: (0, .nil) :: insert2Env p json (h.setValue u v) u js newVal path c0 q ix⟩ := by
  obtain ⟨r, hr⟩ := node_at hcu
  have hk : cut path 0 ((path.length : Int) - i) = .ok (path.take (path.length - i)) := cut_take path (by omega) (by omega)
  have hg := run_Get (fl := fl) (d := d) (Nat.lt_of_le_of_lt (need_take json path (path.length - i)) hf)
  cases hu : r.up with
  | none =>
    rw [hr]
    simp only [Option.bind_some, hu]
    cases hx : Jin.Get json (path.take (path.length - i)) <;> rw [hx] at hg <;>
      run_go [Src.Parser.Insert.body2, node_ok hr, hu, hk, hg, hx, oneVal]
  | some u =>
    obtain ⟨x, hx⟩ := node_at ((hh cu r hr).1 u hu)
    have hs : ∀ v, List.set h u { x with value := v } = h.setValue u v := fun v => set_modify (fun r : NodeRec => { r with value := v }) hx
    rw [hr]
    simp only [Option.bind_some, hu]
    cases hg' : Jin.Get json (path.take (path.length - i)) <;> rw [hg'] at hg <;>
      run_go [Src.Parser.Insert.body2, node_ok hr, hu, hk, hg, node_ok hx, hs, oneVal]

theorem insert2_for {path : List Bytes} (hf : need json path < fuel) (p : ParserP) (js newVal : Bytes) (c0 q : Nat) (ix : Int) (cu : Nat) (hh : Closed h) (hcu : cu < h.length) :
    match climb json (prefixes path 1 path.length) cu h with
    | none => exec (ctx fl fuel (d + 3)) fuel Src.Parser.Insert.for2 ⟨(), insert2Env p json h cu js newVal path c0 q ix⟩ = .panic
    | some (h', none) => ∃ cu', exec (ctx fl fuel (d + 3)) fuel Src.Parser.Insert.for2 ⟨(), insert2Env p json h cu js newVal path c0 q ix⟩ =
        .norm ⟨(), insert2Env p json h' cu' js newVal path c0 q ix⟩
    | some (h', some e) => exec (ctx fl fuel (d + 3)) fuel Src.Parser.Insert.for2 ⟨(), insert2Env p json h cu js newVal path c0 q ix⟩ =
        .ret () [.heap h', .ptr p.core, .bytes json, .err e] := by
  have H := loop_climb (c := fun s => (eval (ctx fl fuel (d + 3)) s.env (.bin .lt (.var (go% i)) (.var (go% lenp)))).bind Val.bool?)
    (post := fun s => exec (ctx fl fuel (d + 3)) fuel (.assign (go% i) (.bin .add (.var (go% i)) (.lit (.int 1)))) s)
    (body := fun s => exec (ctx fl fuel (d + 3)) fuel Src.Parser.Insert.body2 s) (json := json) (path := path) (hi := path.length) (top := path.length)
    (fun i cu h => ⟨(), (go% i, .int i) :: (0, .nil) :: insert2Env p json h cu js newVal path c0 q ix⟩)
    (fun h e => .ret () [.heap h, .ptr p.core, .bytes json, .err e])
    (fun i cu h => by run_go []) (fun i cu h => by run_go []; rfl) (fun _ _ => rfl)
    (fun i cu h hi hh hcu => insert2_body hf p js newVal c0 q ix i cu hi hh hcu)
    fuel 0 cu h hh hcu (Nat.zero_le _) (by simp only [need] at hf; omega)
  have hq : prefixes path 1 path.length = (List.range' 0 (path.length - 0)).map fun i => path.take (path.length - i) := by
    rw [prefixes_eq]; simp only [show path.length + 1 - 1 = path.length - 0 by omega]
  rw [hq]
  rcases e : climb json ((List.range' 0 (path.length - 0)).map fun i => path.take (path.length - i)) cu h with _ | ⟨h', _ | x⟩
  · rw [e] at H
    run_go [Src.Parser.Insert.for2]
    exact (congrArg Res.leave H).trans rfl
  · rw [e] at H
    obtain ⟨cu', H⟩ := H
    refine ⟨cu', ?_⟩
    run_go [Src.Parser.Insert.for2]
    exact (congrArg Res.leave H).trans rfl
  · rw [e] at H
    run_go [Src.Parser.Insert.for2]
    exact (congrArg Res.leave H).trans rfl

end

end Jin.Go
