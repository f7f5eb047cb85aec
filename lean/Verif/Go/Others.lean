import Verif.Go.Array
import Verif.Model.Others
/-!
# Go.Others — `createTabs`, `Flatten`, `Indent` and `Length` of the text
-/

namespace Jin.Go

/-- A `range` statement whose rounds all end normally. -/
theorem range_fold {W σ : Type} {k v : Id} {body : St W → Res W} (E : σ → St W) (step : σ → Val × Val → σ) (P : σ → Prop) :
    ∀ (items : List (Val × Val)) (s : σ), P s →
    (∀ s it, it ∈ items → P s → P (step s it) ∧
      ((body ⟨(E s).w, Env.new v it.2 (Env.new k it.1 ((0, .nil) :: (E s).env))⟩).leave).goes = some (E (step s it))) →
    rangeN k v body items (E s) = .norm (E (items.foldl step s)) := by
  intro items
  induction items with
  | nil => intro s _ _; rfl
  | cons it items ih =>
    intro s hP h
    obtain ⟨h1, h2⟩ := h s it List.mem_cons_self hP
    obtain ⟨i, a⟩ := it
    have := ih (step s (i, a)) h1 fun s it hm => h s it (List.mem_cons_of_mem _ hm)
    rw [rangeN, List.foldl_cons, ← this]
    cases h3 : (body ⟨(E s).w, Env.new v a (Env.new k i ((0, .nil) :: (E s).env))⟩).leave <;>
      simp only [h3, Res.goes, Option.some.injEq, reduceCtorEq] at h2 <;> subst h2 <;> rfl

theorem tabs_fold (l : Bytes) : ∀ m : Nat,
    (l.mapIdx fun i c => (Val.int ((m + i : Nat) : Int), Val.byte c)).foldl
      (fun (r : Bytes) it => match it.1 with | .int i => r.set i.toNat 9 | _ => r) (List.replicate m 9 ++ l) =
    List.replicate (m + l.length) 9 := by
  induction l with
  | nil => intro m; simp
  | cons a l ih =>
    intro m
    rw [List.mapIdx_cons, List.foldl_cons]
    have e1 : (List.replicate m (9 : UInt8) ++ a :: l).set m 9 = List.replicate (m + 1) 9 ++ l := by
      rw [List.set_append_right _ _ (by simp)]
      simp [List.replicate_succ']
    have e2 := ih (m + 1)
    simp only [Nat.add_zero, Int.toNat_natCast]
    rw [e1]
    simp only [Nat.add_assoc, Nat.add_comm 1] at e2
    simp only [List.length_cons]
    exact e2

section
variable {fl : FloatLib UInt64} {fuel d : Nat} {sp : Bool} {json : Bytes} {path : List Bytes}

theorem tabs_for1 (n : Nat) (ρ : Env) :
    exec (ctx fl fuel d) fuel Src.createTabs.for1 ⟨(), (go% res, .bytes (List.replicate n 0)) :: ρ⟩ =
      .norm ⟨(), (go% res, .bytes (List.replicate n 9)) :: ρ⟩ := by
  run_go [Src.createTabs.for1]
  have key := range_fold (W := Unit) (k := go% i) (v := 0) (body := fun s => exec (ctx fl fuel d) fuel Src.createTabs.body1 s)
    (fun r : Bytes => ⟨(), (go% res, .bytes r) :: ρ⟩) (fun r it => match it.1 with | .int i => r.set i.toNat 9 | _ => r)
    (fun r => r.length = n) ((List.replicate n (0 : UInt8)).mapIdx fun i c => (.int i, .byte c)) (List.replicate n 0) (by simp) ?_
  · have e := tabs_fold (List.replicate n 0) 0
    simp only [List.replicate_zero, List.nil_append, Nat.zero_add, List.length_replicate] at e
    rw [e] at key
    exact key
  · intro r it hm hr
    obtain ⟨j, hj, rfl⟩ := List.mem_mapIdx.1 hm
    have e : put r (j : Int) 9 = .ok (r.set j 9) := by
      rw [put, if_pos ⟨by omega, by simp at hj; omega⟩, Int.toNat_natCast]
    refine ⟨by simp [hr], ?_⟩
    run_go [Src.createTabs.body1, Env.new, e, Int.toNat_natCast]

/-- What a function returns that returns one value. -/
def justVal {α : Type} (f : α → Val) : Out α → R (List Val)
  | .ok a => .ok [f a]
  | _ => .panic

theorem run_createTabs (n : Int) :
    (jin fl).fn fuel (d + 1) (go% createTabs) sp [.int n] = justVal .bytes (createTabs n) := by
  rw [fn_run (g := Src.createTabs) rfl]
  by_cases h : n < 0
  · run_go [Func.run, Src.createTabs, bindParams, createTabs, h, justVal]
  · run_go [Func.run, Src.createTabs, bindParams, createTabs, h, justVal, tabs_for1]

/-! ### Flatten -/

theorem flat_done (json : Bytes) : ∃ s, forUp json.length (flatBody json) 0 ⟨[], false⟩ = .done s ∧ s.out.length ≤ json.length := by
  have key := forUp_inv (hi := json.length) (body := flatBody json) (P := fun i s => s.out.length ≤ min i json.length)
    (Q := fun s => s.out.length ≤ json.length) (R := fun _ => False) (by
      intro i s hi hP
      obtain ⟨c, hc⟩ := getElem?_of_lt hi
      simp only [flatBody, hc]
      split
      · split
        · rename_i h
          have := (List.getElem?_eq_some_iff.1 h).1
          simp [Step]; omega
        · simp [Step]; omega
      · split
        · simp [Step]; omega
        · split
          · simp [Step]; omega
          · split <;> simp [Step] <;> omega) (by intro i s _ h; omega) (i := 0) (s := ⟨[], false⟩) (by simp)
  cases h : forUp json.length (flatBody json) 0 ⟨[], false⟩ with
  | done s => rw [h] at key; exact ⟨s, rfl, key⟩
  | ret r => rw [h] at key; exact key.elim

theorem Flatten_short (json : Bytes) : (Flatten json).length ≤ json.length := by
  obtain ⟨s, h, hs⟩ := flat_done json
  rw [Flatten, h]
  exact hs

theorem flat_for1 (hf : json.length < fuel) (ρ : Env) :
    exec (ctx fl fuel (d + 1)) fuel Src.Flatten.for1 ⟨(), (go% inQuote, .bool false) :: (go% newJSON, .bytes []) :: (0, .nil) :: (go% json, .bytes json) :: ρ⟩ =
    after (fun s : FlatSt => ⟨(), (go% inQuote, .bool s.inQuote) :: (go% newJSON, .bytes s.out) :: (0, .nil) :: (go% json, .bytes json) :: ρ⟩)
      (fun _ => .panic) (forUp json.length (flatBody json) 0 ⟨[], false⟩) := by
  run_go [Src.Flatten.for1]
  refine (loop_forUp (hi := json.length) (b := flatBody json) (fun i (s : FlatSt) => ⟨(), (go% i, .int i) :: (0, .nil) :: (go% inQuote, .bool s.inQuote) ::
      (go% newJSON, .bytes s.out) :: (0, .nil) :: (go% json, .bytes json) :: ρ⟩) (fun _ => .panic)
      (fun _ _ => True) (fun _ => True) ?_ ?_ (fun _ => rfl) (fun _ _ _ => trivial) ?_ fuel 0 ⟨[], false⟩ trivial (by omega)).leave _ ?_ (fun _ => rfl)
  · intro i s; run_go []
  · intro i s; run_go []; rfl
  · intro i s hi _
    obtain ⟨c, hc⟩ := getElem?_of_lt hi
    obtain ⟨out, q⟩ := s
    have hm : max i (i + 1) = i + 1 := by omega
    cases h1 : c == 92
    rotate_left
    · have hlt : ((i : Int) + 1 < (json.length : Int)) = (i + 1 < json.length) := by simp; omega
      cases h2 : json[i + 1]? with
      | none =>
        have h3 : ¬ i + 1 < json.length := by simpa using h2
        run_go [flatBody, Src.Flatten.body1, hc, h1, h2, hlt, h3, Sim, hm]
        rfl
      | some x =>
        have h3 : i + 1 < json.length := (List.getElem?_eq_some_iff.1 h2).1
        run_go [flatBody, Src.Flatten.body1, hc, h1, h2, hlt, h3, Sim, hm, List.append_assoc]
        rfl
    cases h2 : c == 34 <;> cases q <;> cases h3 : space c <;> run_go [flatBody, Src.Flatten.body1, hc, h1, h2, h3, Sim]
  · intro i s; rfl

theorem run_Flatten (hf : json.length < fuel) :
    (jin fl).fn fuel (d + 2) (go% Flatten) sp [.bytes json] = .ok [.bytes (Flatten json)] := by
  rw [fn_run (g := Src.Flatten) rfl]
  have e := flat_for1 (fl := fl) (d := d) hf []
  obtain ⟨s, h, -⟩ := flat_done json
  have h0 : ¬ ((json.length : Int) < 0) := by omega
  rw [h] at e
  run_go [Func.run, Src.Flatten, bindParams, Flatten, e, h, after, h0, Int.lt_irrefl]

/-! ### Indent -/

/-- The bytes `Indent` tells apart outside strings. -/
theorem indByte (c : UInt8) :
      (c == 91) = true ∧ (c == 93) = false ∧ (c == 123) = false ∧ (c == 125) = false ∧ (c == 44) = false ∧ (c == 58) = false ∨
      (c == 91) = false ∧ (c == 93) = true ∧ (c == 123) = false ∧ (c == 125) = false ∧ (c == 44) = false ∧ (c == 58) = false ∨
      (c == 91) = false ∧ (c == 93) = false ∧ (c == 123) = true ∧ (c == 125) = false ∧ (c == 44) = false ∧ (c == 58) = false ∨
      (c == 91) = false ∧ (c == 93) = false ∧ (c == 123) = false ∧ (c == 125) = true ∧ (c == 44) = false ∧ (c == 58) = false ∨
      (c == 91) = false ∧ (c == 93) = false ∧ (c == 123) = false ∧ (c == 125) = false ∧ (c == 44) = true ∧ (c == 58) = false ∨
      (c == 91) = false ∧ (c == 93) = false ∧ (c == 123) = false ∧ (c == 125) = false ∧ (c == 44) = false ∧ (c == 58) = true ∨
      (c == 91) = false ∧ (c == 93) = false ∧ (c == 123) = false ∧ (c == 125) = false ∧ (c == 44) = false ∧ (c == 58) = false := by
  by_cases h1 : c = 91
  · subst h1; decide
  by_cases h2 : c = 93
  · subst h2; decide
  by_cases h3 : c = 123
  · subst h3; decide
  by_cases h4 : c = 125
  · subst h4; decide
  by_cases h5 : c = 44
  · subst h5; decide
  by_cases h6 : c = 58
  · subst h6; decide
  simp [h1, h2, h3, h4, h5, h6]

theorem tabs_cases (n : Int) : (∃ t, createTabs n = .ok t) ∨ createTabs n = .panic := by
  rw [createTabs]; split
  · exact .inr rfl
  · exact .inl ⟨_, rfl⟩

theorem ind_for1 (hf : json.length < fuel) (ρ : Env) :
    exec (ctx fl fuel (d + 1)) fuel Src.Indent.for1 ⟨(), (go% level, .int 0) :: (go% inQuote, .bool false) :: (go% newJSON, .bytes []) :: (0, .nil) ::
      (go% json, .bytes json) :: ρ⟩ =
    after (fun s : IndSt => ⟨(), (go% level, .int s.level) :: (go% inQuote, .bool s.inQuote) :: (go% newJSON, .bytes s.out) :: (0, .nil) ::
      (go% json, .bytes json) :: ρ⟩)
      (fun _ => .panic) (forUp json.length (indBody json) 0 ⟨[], false, 0⟩) := by
  run_go [Src.Indent.for1]
  refine (loop_forUp (hi := json.length) (b := indBody json) (fun i (s : IndSt) => ⟨(), (go% i, .int i) :: (0, .nil) :: (go% level, .int s.level) ::
      (go% inQuote, .bool s.inQuote) :: (go% newJSON, .bytes s.out) :: (0, .nil) :: (go% json, .bytes json) :: ρ⟩) (fun _ => .panic)
      (fun _ _ => True) (fun _ => True) ?_ ?_ (fun _ => rfl) (fun _ _ _ => trivial) ?_ fuel 0 ⟨[], false, 0⟩ trivial (by omega)).leave _ ?_ (fun _ => rfl)
  · intro i s; run_go []
  · intro i s; run_go []; rfl
  · intro i s hi _
    obtain ⟨c, hc⟩ := getElem?_of_lt hi
    obtain ⟨out, q, lv⟩ := s
    cases h1 : c == 34
    rotate_left
    · have e := elem_pred json i
      rcases idx_cases json ((i : Int) - 1) with ⟨p, h2⟩ | h2
      · rw [h2] at e
        cases h3 : p == 92 <;> run_go [indBody, Src.Indent.body1, hc, h1, h2, e, h3, Sim]
      · rw [h2] at e
        run_go [indBody, Src.Indent.body1, hc, h1, h2, e, Sim]
    cases q
    rotate_left
    · run_go [indBody, Src.Indent.body1, hc, h1, Sim]
    cases h2 : space c
    rotate_left
    · run_go [indBody, Src.Indent.body1, hc, h1, h2, Sim]
    rcases indByte c with h | h | h | h | h | h | h <;> obtain ⟨h3, h4, h5, h6, h7, h8⟩ := h
    · rcases tabs_cases (lv + 1) with ⟨t, h9⟩ | h9 <;>
        run_go [indBody, Src.Indent.body1, hc, h1, h2, h3, h4, h5, h6, h7, h8, run_createTabs, h9, justVal, Sim, List.append_assoc]
    · rcases tabs_cases (lv - 1) with ⟨t, h9⟩ | h9 <;>
        run_go [indBody, Src.Indent.body1, hc, h1, h2, h3, h4, h5, h6, h7, h8, run_createTabs, h9, justVal, Sim, List.append_assoc]
    · rcases tabs_cases (lv + 1) with ⟨t, h9⟩ | h9 <;>
        run_go [indBody, Src.Indent.body1, hc, h1, h2, h3, h4, h5, h6, h7, h8, run_createTabs, h9, justVal, Sim, List.append_assoc]
    · rcases tabs_cases (lv - 1) with ⟨t, h9⟩ | h9 <;>
        run_go [indBody, Src.Indent.body1, hc, h1, h2, h3, h4, h5, h6, h7, h8, run_createTabs, h9, justVal, Sim, List.append_assoc]
    · rcases tabs_cases lv with ⟨t, h9⟩ | h9 <;>
        run_go [indBody, Src.Indent.body1, hc, h1, h2, h3, h4, h5, h6, h7, h8, run_createTabs, h9, justVal, Sim, List.append_assoc]
    · run_go [indBody, Src.Indent.body1, hc, h1, h2, h3, h4, h5, h6, h7, h8, Sim, List.append_assoc]
    · run_go [indBody, Src.Indent.body1, hc, h1, h2, h3, h4, h5, h6, h7, h8, Sim]
  · intro i s; rfl

theorem run_Indent (hf : json.length < fuel) :
    (jin fl).fn fuel (d + 3) (go% Indent) sp [.bytes json] = justVal .bytes (Indent json) := by
  rw [fn_run (g := Src.Indent) rfl]
  have e := ind_for1 (fl := fl) (d := d + 1) (json := Flatten json) (Nat.lt_of_le_of_lt (Flatten_short json) hf) []
  have h0 : ¬ (((Flatten json).length : Int) < 0) := by omega
  cases h : forUp (Flatten json).length (indBody (Flatten json)) 0 ⟨[], false, 0⟩ <;> rw [h] at e <;>
    run_go [Func.run, Src.Indent, bindParams, Indent, run_Flatten hf, e, h, after, h0, justVal, Int.lt_irrefl]

/-! ### Length -/

/-- `for _, v := range chars { isJSONChar[v] = true }` -/
theorem range_tbl {W : Type} {w : W} {body : St W → Res W} {ρ : Env} (hb : ∀ (tb : List Bool) (c : UInt8), tb.length = 256 →
      (body ⟨w, (go% v, .byte c) :: (0, .nil) :: (go% isJSONChar, .bools tb) :: ρ⟩).leave =
        .norm ⟨w, (go% isJSONChar, .bools (tb.set c.toNat true)) :: ρ⟩) (l : Bytes) :
    ∀ (items : List (Val × Val)) (tb : List Bool), items.map Prod.snd = l.map Val.byte → tb.length = 256 →
    rangeN 0 (go% v) body items ⟨w, (go% isJSONChar, .bools tb) :: ρ⟩ =
      .norm ⟨w, (go% isJSONChar, .bools (l.foldl (fun tb c => tb.set c.toNat true) tb)) :: ρ⟩ := by
  induction l with
  | nil =>
    intro items tb h _
    cases items with
    | nil => rfl
    | cons x xs => simp at h
  | cons c l ih =>
    intro items tb h htb
    cases items with
    | nil => simp at h
    | cons x xs =>
      obtain ⟨i, a⟩ := x
      simp only [List.map_cons, List.cons.injEq] at h
      obtain ⟨rfl, h⟩ := h
      rw [rangeN]
      simp only [Env.new, beq_self_eq_true, if_true, show ((go% v) == 0) = false from rfl, Bool.false_eq_true, if_false, hb tb c htb]
      exact ih xs _ h (by simpa using htb)

theorem len_for1 (ρ : Env) :
    exec (ctx fl fuel d) fuel Src.Length.for1 ⟨(), (go% isJSONChar, .bools (List.replicate 256 false)) ::
      (go% chars, .bytes [34, 44, 91, 93, 123, 125]) :: ρ⟩ =
    .norm ⟨(), (go% isJSONChar, .bools (tbl true false)) :: (go% chars, .bytes [34, 44, 91, 93, 123, 125]) :: ρ⟩ := by
  run_go [Src.Length.for1]
  refine (range_tbl ?_ [34, 44, 91, 93, 123, 125] _ _ rfl List.length_replicate).trans ?_
  · intro tb c h
    run_go [Src.Length.body1, put_nat tb c.toNat true (by rw [h]; exact c.toNat_lt)]
  · have e : ([34, 44, 91, 93, 123, 125] : Bytes).foldl (fun tb c => tb.set c.toNat true) (List.replicate 256 false) = tbl true false := by
      decide +kernel
    rw [e]

/-- The variables of `Length` in its loop. -/
abbrev lEnv (json : Bytes) (s : LenSt) (start stop : Nat) (ρ : Env) : Env :=
  (go% isJSONChar, .bools (tbl true false)) :: (go% chars, .bytes [34, 44, 91, 93, 123, 125]) :: (go% inQuote, .bool s.inQuote) ::
    (go% level, .int s.level) :: (go% length, .int s.length) :: (go% err, .nil) :: (go% «end», .int stop) :: (go% start, .int start) ::
    (0, .nil) :: (go% json, .bytes json) :: ρ

theorem len_for3 (hf : json.length < fuel) {i : Nat} (hi : i ≤ json.length) (c : UInt8) (s : LenSt) (start stop : Nat) (ρ : Env) :
    exec (ctx fl fuel d) fuel Src.Length.for3
      ⟨(), (go% curr, .byte c) :: (0, .nil) :: (go% i, .int i) :: (0, .nil) :: lEnv json s start stop ρ⟩ =
    match quoteScan json i i with
    | .real => .norm ⟨(), (go% curr, .byte c) :: (0, .nil) :: (go% i, .int i) :: (0, .nil) :: lEnv json { s with inQuote := !s.inQuote } start stop ρ⟩
    | _ => .norm ⟨(), (go% curr, .byte c) :: (0, .nil) :: (go% i, .int i) :: (0, .nil) :: lEnv json s start stop ρ⟩ := by
  run_go [Src.Length.for3]
  refine (loop_quote (json := json) (i := i) (fun n => ⟨(), (go% n, .int n) :: (0, .nil) :: (go% curr, .byte c) :: (0, .nil) ::
      (go% i, .int i) :: (0, .nil) :: lEnv json s start stop ρ⟩)
      (.norm ⟨(), (go% curr, .byte c) :: (0, .nil) :: (go% i, .int i) :: (0, .nil) :: lEnv json { s with inQuote := !s.inQuote } start stop ρ⟩)
      (.norm ⟨(), (go% curr, .byte c) :: (0, .nil) :: (go% i, .int i) :: (0, .nil) :: lEnv json s start stop ρ⟩)
      (.norm ⟨(), (go% curr, .byte c) :: (0, .nil) :: (go% i, .int i) :: (0, .nil) :: lEnv json s start stop ρ⟩)
      ?_ ?_ ?_ ?_ hi fuel i (Nat.le_refl i) (by omega)).trans ?_
  · intro n; run_go []
  · intro n; run_go []
  · intro n; rfl
  · intro n ch hn hc
    cases h1 : ch == 92 <;> cases h2 : (i - n) % 2 == 0 <;> run_go [Src.Length.body3, hc, h1, mod_sub hn, h2]
  · cases quoteScan json i i <;> rfl

theorem len_for2 (hf : json.length < fuel) (start stop : Nat) (hs : stop ≤ json.length) (ρ : Env) :
    exec (ctx fl fuel d) fuel Src.Length.for2 ⟨(), lEnv json ⟨0, 0, false⟩ start stop ρ⟩ =
    after (fun s : LenSt => ⟨(), lEnv json s start stop ρ⟩) (fun _ => .panic) (forUp stop (lenBody json) start ⟨0, 0, false⟩) := by
  run_go [Src.Length.for2]
  refine (loop_forUp (hi := stop) (b := lenBody json) (fun i (s : LenSt) => ⟨(), (go% i, .int i) :: (0, .nil) :: lEnv json s start stop ρ⟩) (fun _ => .panic)
      (fun _ _ => True) (fun _ => True) ?_ ?_ (fun _ => rfl) (fun _ _ _ => trivial) ?_ fuel start ⟨0, 0, false⟩ trivial (by omega)).leave _ ?_ (fun _ => rfl)
  · intro i s; run_go []
  · intro i s; run_go []; rfl
  · intro i s hi _
    have hl : i < json.length := by omega
    obtain ⟨c, hc⟩ := getElem?_of_lt hl
    have e := len_for3 (fl := fl) (d := d) hf (Nat.le_of_lt hl) c s start stop ρ
    obtain ⟨n, lv, q⟩ := s
    cases h1 : isJSONChar true false c
    · run_go [lenBody, Src.Length.body2, hc, h1, Sim]
    cases h2 : c == 34
    rotate_left
    · cases h3 : quoteScan json i i <;> rw [h3] at e <;> run_go [lenBody, Src.Length.body2, hc, h1, h2, h3, e, Sim]
    cases q
    rotate_left
    · run_go [lenBody, Src.Length.body2, hc, h1, h2, Sim]
    rcases indByte c with h | h | h | h | h | h | h <;> obtain ⟨h3, h4, h5, h6, h7, h8⟩ := h <;>
      cases h9 : lv == 1 <;> run_go [lenBody, Src.Length.body2, hc, h1, h2, h3, h4, h5, h6, h7, h9, Sim, Int.natCast_succ] <;> rfl
  · intro i s; rfl

theorem len_for4 (hf : json.length < fuel) (start stop : Nat) (hs : stop ≤ json.length) (s : LenSt) (ρ : Env) :
    exec (ctx fl fuel (d + 1)) fuel Src.Length.for4 ⟨(), lEnv json s start stop ρ⟩ =
    match firstNS json (start + 1) (stop - 1) with
    | some _ => .ret () [.int 1, .nil]
    | none => .norm ⟨(), lEnv json s start stop ρ⟩ := by
  run_go [Src.Length.for4]
  have key := loop_first (json := json) (hi := stop - 1)
    (c := fun s => (eval (ctx fl fuel (d + 1)) s.env (.bin .lt (.var (go% i)) (.bin .sub (.var (go% «end»)) (.lit (.int 1))))).bind Val.bool?)
    (post := fun s => exec (ctx fl fuel (d + 1)) fuel (.assign (go% i) (.bin .add (.var (go% i)) (.lit (.int 1)))) s)
    (body := fun s => exec (ctx fl fuel (d + 1)) fuel Src.Length.body4 s)
    (fun i : Nat => (⟨(), (go% i, .int i) :: (0, .nil) :: lEnv json s start stop ρ⟩ : St Unit))
    (fun _ => .ret () [.int 1, .nil]) ?_ (by omega) ?_ ?_ fuel (start + 1) (by omega)
  · simp only [Int.natCast_succ] at key
    rw [key]
    cases h : firstNS json (start + 1) (stop - 1) <;> rfl
  · intro i
    have h : ((i : Int) < (stop : Int) - 1) = (i < stop - 1) := by simp; omega
    run_go [h]
  · intro i c _ hc hs
    refine ⟨_, by run_go [Src.Length.body4, hc, hs]; rfl, by run_go []; rfl⟩
  · intro i c _ hc hs
    run_go [Src.Length.body4, hc, hs]

theorem skipSpacesDown_lt {j : Nat} : ∀ {n : Nat}, skipSpacesDown json n = some j → n ≤ json.length → j < json.length := by
  intro n
  induction n with
  | zero => intro h; cases h
  | succ n ih =>
    intro h hn
    rw [skipSpacesDown] at h
    split at h
    · cases h
    · split at h
      · exact ih h (by omega)
      · cases h; omega

theorem startEnd_le {start stop : Nat} (h : getStartEnd json path = .ok (start, stop)) : stop ≤ json.length := by
  rw [getStartEnd] at h
  split at h
  · cases h
  · split at h
    · rename_i hp
      cases h1 : core json false path with
      | ok l =>
        rw [h1] at h
        cases h
        exact (core_shape (by intro h; subst h; simp at hp) h1).1.len
      | err e => rw [h1] at h; cases h
      | panic => rw [h1] at h; cases h
    · cases h1 : skipSpaces json 0 with
      | none => rw [h1] at h; cases h
      | some a =>
        rw [h1] at h
        cases h2 : skipSpacesDown json json.length with
        | none => rw [h2] at h; cases h
        | some b => rw [h2] at h; cases h; exact Nat.le_of_lt (skipSpacesDown_lt h2 (Nat.le_refl _))

theorem run_Length (hf : need json path < fuel) :
    (jin fl).fn fuel (d + 4) (go% Length) true [.bytes json, .strs path] = oneVal (fun n : Nat => .int n) (.int (-1)) (Length json path) := by
  rw [fn_run (g := Src.Length) rfl]
  refine one_body rfl ?_
  have hf' : json.length < fuel := by unfold need at hf; omega
  have ha : bArr = [91, 93] := rfl
  have ho : bObj = [123, 125] := rfl
  cases h1 : json == [91, 93]
  rotate_left
  · run_go [Src.Length, Length, ha, ho, h1, oneRes, Int.natCast_zero]
  cases h2 : json == [123, 125]
  rotate_left
  · run_go [Src.Length, Length, ha, ho, h1, h2, oneRes, Int.natCast_zero]
  cases h : getStartEnd json path with
  | err e => run_go [Src.Length, Length, ha, ho, h1, h2, oneRes, run_getStartEnd hf, h, twoVals]
  | panic => run_go [Src.Length, Length, ha, ho, h1, h2, oneRes, run_getStartEnd hf, h, twoVals]
  | ok r =>
    obtain ⟨start, stop⟩ := r
    have hs := startEnd_le h
    have e2 := len_for2 (fl := fl) (d := d + 3) hf' start stop hs [(go% path, .strs path)]
    have e4 := fun s => len_for4 (fl := fl) (d := d + 2) hf' start stop hs s [(go% path, .strs path)]
    simp only [lEnv, Int.natCast_zero] at e2 e4
    cases h3 : forUp stop (lenBody json) start ⟨0, 0, false⟩ with
    | ret r =>
      rw [h3] at e2
      run_go [Src.Length, Length, ha, ho, h1, h2, oneRes, run_getStartEnd hf, h, twoVals, len_for1, e2, h3, after]
    | done s =>
      rw [h3] at e2
      cases h4 : s.length == 0
      · run_go [Src.Length, Length, ha, ho, h1, h2, oneRes, run_getStartEnd hf, h, twoVals, len_for1, e2, h3, after, h4, Int.natCast_succ]
      · cases h5 : firstNS json (start + 1) (stop - 1) <;> simp only [h5] at e4 <;>
          run_go [Src.Length, Length, ha, ho, h1, h2, oneRes, run_getStartEnd hf, h, twoVals, len_for1, e2, h3, after, h4, e4, h5] <;> rfl

end

end Jin.Go
