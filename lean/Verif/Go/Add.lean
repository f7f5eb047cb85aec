import Verif.Go.SetMore
import Verif.Proof.Edges
/-!
# Go.Add — `AddKeyValue`, `Add` and `Insert` of `inter_add.go`
-/

namespace Jin.Go

/-- `for i := …; i < hi; i++ { if !space(json[i]) { empty = false } }` -/
theorem loop_empty {W : Type} {c : St W → R Bool} {post body : St W → Res W} {json : Bytes} {hi : Nat} (E : Nat → Bool → St W)
    (hc : ∀ i b, c (E i b) = .ok (decide (i < hi)))
    (hhi : hi ≤ json.length)
    (hb : ∀ i b ch, i < hi → json[i]? = some ch → ∃ t, (body (E i b)).goes = some t ∧ post t = .norm (E (i + 1) (b && space ch))) :
    ∀ n i b, hi - i < n → ∃ j, loopN c post body n (E i b) = .norm (E j (b && (firstNS json i hi).isNone)) := by
  intro n
  induction n with
  | zero => intro i b h; omega
  | succ n ih =>
    intro i b hn
    by_cases hi' : i < hi
    · have hg := List.getElem?_eq_getElem (show i < json.length by omega)
      obtain ⟨t, h1, h2⟩ := hb i b _ hi' hg
      rw [loopN_goes (by rw [hc]; simp [hi']) h1, h2]
      obtain ⟨j, hj⟩ := ih (i + 1) (b && space json[i]) (by omega)
      refine ⟨j, ?_⟩
      simp only [Res.andThen]
      have e : firstNS json i hi = if space json[i] then firstNS json (i + 1) hi else some i := by
        rw [firstNS, if_pos hi', hg]
      rw [hj, e]
      cases hx : space json[i] <;> simp
    · refine ⟨i, ?_⟩
      rw [loopN_end (by rw [hc]; simp [hi']), firstNS, if_neg hi']
      simp

/-- `json[start] = …` for the first byte that is not a space. -/
def headOf (json : Bytes) (o : UInt8) (e : Err) : Out Nat :=
  match firstNS json 0 json.length with
  | none => .ok 0
  | some i =>
    match json[i]? with
    | none => .panic
    | some b =>
      if b == o then
        if i + 1 == json.length then .err (.badJSON i) else .ok i
      else .err e

/-- The end of what begins there. -/
def tailOf (json : Bytes) (c : UInt8) (e : Err) : Out Nat :=
  match lastNS json 0 json.length with
  | none => .ok 0
  | some i =>
    match json[i]? with
    | none => .panic
    | some b =>
      if b == c then
        if i == 0 then .err (.badJSON i) else .ok (i + 1)
      else .err e

theorem rootSpan_eq (json : Bytes) (o c : UInt8) (e : Err) :
    rootSpan json o c e = (headOf json o e >>= fun a => tailOf json c e >>= fun b => Out.ok (a, b)) := by
  have e2 : ∀ a : Nat, (do
      let stop ←
        match lastNS json 0 json.length with
        | none => (Out.ok 0 : Out Nat)
        | some i =>
          match json[i]? with
          | none => .panic
          | some b =>
            if b == c then
              if i == 0 then .err (.badJSON i) else .ok (i + 1)
            else .err e
      return (a, stop)) = (tailOf json c e >>= fun b => Out.ok (a, b)) := by
    intro a
    simp only [tailOf]
    cases lastNS json 0 json.length with
    | none => rfl
    | some i =>
      cases h0 : json[i]? with
      | none => simp only [h0]; rfl
      | some b => cases h : b == c <;> cases h' : i == 0 <;> simp only [h0, h, h'] <;> rfl
  simp only [rootSpan, headOf]
  cases firstNS json 0 json.length with
  | none => exact e2 0
  | some i =>
    cases h0 : json[i]? with
    | none => simp only [h0]; rfl
    | some b => cases h : b == o <;> cases h' : i + 1 == json.length <;> simp only [h0, h, h'] <;> first | rfl | exact e2 i

section
variable {fl : FloatLib UInt64} {fuel d : Nat} {sp : Bool} {json : Bytes} {path : List Bytes} {ρ : Env}

/-- The variables of the three functions. -/
abbrev spanEnv (json : Bytes) (start stop : Int) (ρ : Env) : Env :=
  (go% err, .nil) :: (go% «end», .int stop) :: (go% start, .int start) :: (0, .nil) :: (go% json, .bytes json) :: ρ

/-- How the search for the container ends. -/
def spanRes {α : Type} (json : Bytes) (f : α → St Unit) : Out α → Res Unit
  | .ok a => .norm (f a)
  | .err e => .ret () [.bytes json, .err e]
  | .panic => .panic


theorem AddKeyValue_for1 (hf : json.length < fuel) (z : Int) :
    exec (ctx fl fuel (d + 1)) fuel Src.AddKeyValue.for1 ⟨(), spanEnv json 0 z ρ⟩ =
    spanRes json (fun a : Nat => ⟨(), spanEnv json a z ρ⟩) (headOf json 123 .objectExpected) := by
  run_go [Src.AddKeyValue.for1]
  refine (loop_first (json := json) (hi := json.length) (fun i : Nat => (⟨(), (go% i, .int i) :: (0, .nil) :: spanEnv json 0 z ρ⟩ : St Unit))
      (fun i => spanRes json (fun a : Nat => ⟨(), spanEnv json a z ρ⟩) (match json[i]? with
        | none => .panic
        | some b => if b == 123 then if i + 1 == json.length then .err (.badJSON i) else .ok i else .err .objectExpected))
      ?_ (Nat.le_refl _) ?_ ?_ fuel 0 (by omega)).trans ?_
  · intro i
    run_go []
  · intro i c _ hc hs
    refine ⟨_, by run_go [Src.AddKeyValue.body1, hc, hs]; rfl, by run_go []; rfl⟩
  · intro i c _ hc hs
    have hi : ((i : Int) == (json.length : Int) - 1) = (i + 1 == json.length) := by
      rw [Bool.eq_iff_iff]; simp; omega
    cases h1 : c == 123 <;> cases h2 : i + 1 == json.length <;>
      run_go [Src.AddKeyValue.body1, hc, hs, h1, h2, hi, spanRes]
  · rw [headOf]
    cases h : firstNS json 0 json.length <;> rfl

theorem AddKeyValue_for2 (hf : json.length < fuel) (st : Int) :
    exec (ctx fl fuel (d + 1)) fuel Src.AddKeyValue.for2 ⟨(), spanEnv json st 0 ρ⟩ =
    spanRes json (fun z : Nat => ⟨(), spanEnv json st z ρ⟩) (tailOf json 125 .objectExpected) := by
  run_go [Src.AddKeyValue.for2]
  refine (loop_last (json := json) (lo := 0) (fun i : Int => (⟨(), (go% i, .int i) :: (0, .nil) :: spanEnv json st 0 ρ⟩ : St Unit))
      (fun i => spanRes json (fun z : Nat => ⟨(), spanEnv json st z ρ⟩) (match json[i]? with
        | none => .panic
        | some b => if b == 125 then if i == 0 then .err (.badJSON i) else .ok (i + 1) else .err .objectExpected))
      ?_ ?_ ?_ fuel json.length (Nat.le_refl _) hf).trans ?_
  · intro i
    have h : ((-1 : Int) < i) = (((0 : Nat) : Int) ≤ i) := by simp; omega
    run_go [h]
  · intro i c hc hs
    refine ⟨_, by run_go [Src.AddKeyValue.body2, hc, hs]; rfl, by run_go []⟩
  · intro i c hc hs
    cases h1 : c == 125 <;> cases h2 : i == 0 <;>
      run_go [Src.AddKeyValue.body2, hc, hs, h1, h2, spanRes, Int.natCast_succ]
  · rw [tailOf]
    cases h : lastNS json 0 json.length <;> rfl

theorem AddKeyValue_for3 (hf : json.length < fuel) (start stop : Nat) (hs : stop ≤ json.length) :
    exec (ctx fl fuel (d + 1)) fuel Src.AddKeyValue.for3 ⟨(), (go% empty, .bool true) :: (0, .nil) :: spanEnv json start stop ρ⟩ =
    .norm ⟨(), (go% empty, .bool (firstNS json (start + 1) (stop - 1)).isNone) :: (0, .nil) :: spanEnv json start stop ρ⟩ := by
  run_go [Src.AddKeyValue.for3]
  have key := loop_empty (json := json) (hi := stop - 1)
      (c := fun s => (eval (ctx fl fuel (d + 1)) s.env (.bin .lt (.var (go% i)) (.bin .sub (.var (go% «end»)) (.lit (.int 1))))).bind Val.bool?)
      (post := fun s => exec (ctx fl fuel (d + 1)) fuel (.assign (go% i) (.bin .add (.var (go% i)) (.lit (.int 1)))) s)
      (body := fun s => exec (ctx fl fuel (d + 1)) fuel Src.AddKeyValue.body3 s)
      (fun i b => (⟨(), (go% i, .int i) :: (0, .nil) ::
      (go% empty, .bool b) :: (0, .nil) :: spanEnv json start stop ρ⟩ : St Unit)) ?_ (by omega) ?_ fuel (start + 1) true (by omega)
  · obtain ⟨j, hj⟩ := key
    simp only [Int.natCast_succ] at hj
    rw [hj]
    rfl
  · intro i b
    have h : ((i : Int) < (stop : Int) - 1) = (i < stop - 1) := by simp; omega
    run_go [h]
  · intro i b ch _ hc
    cases hs : space ch <;> cases b <;> refine ⟨_, by run_go [Src.AddKeyValue.body3, hc, hs]; rfl, by run_go []; rfl⟩

theorem Add_for1 (hf : json.length < fuel) (z : Int) :
    exec (ctx fl fuel (d + 1)) fuel Src.Add.for1 ⟨(), spanEnv json 0 z ρ⟩ =
    spanRes json (fun a : Nat => ⟨(), spanEnv json a z ρ⟩) (headOf json 91 .arrayExpected) := by
  run_go [Src.Add.for1]
  refine (loop_first (json := json) (hi := json.length) (fun i : Nat => (⟨(), (go% i, .int i) :: (0, .nil) :: spanEnv json 0 z ρ⟩ : St Unit))
      (fun i => spanRes json (fun a : Nat => ⟨(), spanEnv json a z ρ⟩) (match json[i]? with
        | none => .panic
        | some b => if b == 91 then if i + 1 == json.length then .err (.badJSON i) else .ok i else .err .arrayExpected))
      ?_ (Nat.le_refl _) ?_ ?_ fuel 0 (by omega)).trans ?_
  · intro i
    run_go []
  · intro i c _ hc hs
    refine ⟨_, by run_go [Src.Add.body1, hc, hs]; rfl, by run_go []; rfl⟩
  · intro i c _ hc hs
    have hi : ((i : Int) == (json.length : Int) - 1) = (i + 1 == json.length) := by
      rw [Bool.eq_iff_iff]; simp; omega
    cases h1 : c == 91 <;> cases h2 : i + 1 == json.length <;>
      run_go [Src.Add.body1, hc, hs, h1, h2, hi, spanRes]
  · rw [headOf]
    cases h : firstNS json 0 json.length <;> rfl

theorem Add_for2 (hf : json.length < fuel) (st : Int) :
    exec (ctx fl fuel (d + 1)) fuel Src.Add.for2 ⟨(), spanEnv json st 0 ρ⟩ =
    spanRes json (fun z : Nat => ⟨(), spanEnv json st z ρ⟩) (tailOf json 93 .arrayExpected) := by
  run_go [Src.Add.for2]
  refine (loop_last (json := json) (lo := 0) (fun i : Int => (⟨(), (go% i, .int i) :: (0, .nil) :: spanEnv json st 0 ρ⟩ : St Unit))
      (fun i => spanRes json (fun z : Nat => ⟨(), spanEnv json st z ρ⟩) (match json[i]? with
        | none => .panic
        | some b => if b == 93 then if i == 0 then .err (.badJSON i) else .ok (i + 1) else .err .arrayExpected))
      ?_ ?_ ?_ fuel json.length (Nat.le_refl _) hf).trans ?_
  · intro i
    have h : ((-1 : Int) < i) = (((0 : Nat) : Int) ≤ i) := by simp; omega
    run_go [h]
  · intro i c hc hs
    refine ⟨_, by run_go [Src.Add.body2, hc, hs]; rfl, by run_go []⟩
  · intro i c hc hs
    cases h1 : c == 93 <;> cases h2 : i == 0 <;>
      run_go [Src.Add.body2, hc, hs, h1, h2, spanRes, Int.natCast_succ]
  · rw [tailOf]
    cases h : lastNS json 0 json.length <;> rfl

theorem Add_for3 (hf : json.length < fuel) (start stop : Nat) (hs : stop ≤ json.length) :
    exec (ctx fl fuel (d + 1)) fuel Src.Add.for3 ⟨(), (go% empty, .bool true) :: (0, .nil) :: spanEnv json start stop ρ⟩ =
    .norm ⟨(), (go% empty, .bool (firstNS json (start + 1) (stop - 1)).isNone) :: (0, .nil) :: spanEnv json start stop ρ⟩ := by
  run_go [Src.Add.for3]
  have key := loop_empty (json := json) (hi := stop - 1)
      (c := fun s => (eval (ctx fl fuel (d + 1)) s.env (.bin .lt (.var (go% i)) (.bin .sub (.var (go% «end»)) (.lit (.int 1))))).bind Val.bool?)
      (post := fun s => exec (ctx fl fuel (d + 1)) fuel (.assign (go% i) (.bin .add (.var (go% i)) (.lit (.int 1)))) s)
      (body := fun s => exec (ctx fl fuel (d + 1)) fuel Src.Add.body3 s)
      (fun i b => (⟨(), (go% i, .int i) :: (0, .nil) ::
      (go% empty, .bool b) :: (0, .nil) :: spanEnv json start stop ρ⟩ : St Unit)) ?_ (by omega) ?_ fuel (start + 1) true (by omega)
  · obtain ⟨j, hj⟩ := key
    simp only [Int.natCast_succ] at hj
    rw [hj]
    rfl
  · intro i b
    have h : ((i : Int) < (stop : Int) - 1) = (i < stop - 1) := by simp; omega
    run_go [h]
  · intro i b ch _ hc
    cases hs : space ch <;> cases b <;> refine ⟨_, by run_go [Src.Add.body3, hc, hs]; rfl, by run_go []; rfl⟩

/-- The first statement of a sequence. -/
def Stmt.first : Stmt → Stmt
  | .seq a _ => a
  | s => s

theorem tailOf_le {c : UInt8} {e : Err} {n : Nat} (h : tailOf json c e = .ok n) : n ≤ json.length := by
  rw [tailOf] at h
  split at h
  · cases h; omega
  · split at h
    · cases h
    · split at h
      · split at h
        · cases h
        · cases h
          have := (List.getElem?_eq_some_iff.1 ‹_›).1
          omega
      · cases h

theorem containerSpan_le {o c : UInt8} {e : Err} {a b : Nat} (h : containerSpan json o c e path = .ok (a, b)) : b ≤ json.length := by
  rw [containerSpan] at h
  cases hp : path.length == 0
  · simp only [hp, Bool.false_eq_true, if_false] at h
    cases h1 : core json false path with
    | ok l =>
      simp only [h1, bind, Out.bind, pure, Out.ok.injEq, Prod.mk.injEq] at h
      have := (core_shape (by rintro rfl; cases hp) h1).1.len
      omega
    | err e => rw [h1] at h; cases h
    | panic => rw [h1] at h; cases h
  · simp only [hp, if_true, rootSpan_eq] at h
    cases h1 : headOf json o e with
    | ok x =>
      cases h2 : tailOf json c e with
      | ok y =>
        simp only [h1, h2, bind, Out.bind, Out.ok.injEq, Prod.mk.injEq] at h
        have := tailOf_le h2
        omega
      | err e => rw [h1, h2] at h; cases h
      | panic => rw [h1, h2] at h; cases h
    | err e => rw [h1] at h; cases h
    | panic => rw [h1] at h; cases h

theorem AddKeyValue_span (hf : need json path < fuel) (k v : Val) :
    exec (ctx fl fuel (d + 2)) fuel (Src.AddKeyValue.body.rest 5).first ⟨(), spanEnv json 0 0 [(go% key, k), (go% value, v), (go% path, .strs path)]⟩ =
    spanRes json (fun r : Nat × Nat => ⟨(), spanEnv json r.1 r.2 [(go% key, k), (go% value, v), (go% path, .strs path)]⟩) (containerSpan json 123 125 .objectExpected path) := by
  have hf' : json.length < fuel := by unfold need at hf; omega
  simp only [Src.AddKeyValue, Stmt.rest, Stmt.first]
  rw [containerSpan]
  cases hp : path.length == 0
  · cases h : core json false path <;> run_go [run_core hf, hp, h, locVals, spanRes]
  · have e1 := AddKeyValue_for1 (fl := fl) (d := d + 1) (json := json) (ρ := [(go% key, k), (go% value, v), (go% path, .strs path)]) hf' 0
    rw [rootSpan_eq]
    cases h1 : headOf json 123 .objectExpected with
    | ok a =>
      have e2 := AddKeyValue_for2 (fl := fl) (d := d + 1) (json := json) (ρ := [(go% key, k), (go% value, v), (go% path, .strs path)]) hf' a
      rw [h1] at e1
      simp only [spanRes] at e1
      cases h2 : tailOf json 125 .objectExpected <;> rw [h2] at e2 <;> simp only [spanRes] at e2 <;> run_go [hp, e1, e2, spanRes]
    | err e =>
      rw [h1] at e1
      simp only [spanRes] at e1
      run_go [hp, e1, spanRes]
    | panic =>
      rw [h1] at e1
      simp only [spanRes] at e1
      run_go [hp, e1, spanRes]

theorem Add_span (hf : need json path < fuel) (v : Val) :
    exec (ctx fl fuel (d + 2)) fuel (Src.Add.body.rest 4).first ⟨(), spanEnv json 0 0 [(go% value, v), (go% path, .strs path)]⟩ =
    spanRes json (fun r : Nat × Nat => ⟨(), spanEnv json r.1 r.2 [(go% value, v), (go% path, .strs path)]⟩) (containerSpan json 91 93 .arrayExpected path) := by
  have hf' : json.length < fuel := by unfold need at hf; omega
  simp only [Src.Add, Stmt.rest, Stmt.first]
  rw [containerSpan]
  cases hp : path.length == 0
  · cases h : core json false path <;> run_go [run_core hf, hp, h, locVals, spanRes]
  · have e1 := Add_for1 (fl := fl) (d := d + 1) (json := json) (ρ := [(go% value, v), (go% path, .strs path)]) hf' 0
    rw [rootSpan_eq]
    cases h1 : headOf json 91 .arrayExpected with
    | ok a =>
      have e2 := Add_for2 (fl := fl) (d := d + 1) (json := json) (ρ := [(go% value, v), (go% path, .strs path)]) hf' a
      rw [h1] at e1
      simp only [spanRes] at e1
      cases h2 : tailOf json 93 .arrayExpected <;> rw [h2] at e2 <;> simp only [spanRes] at e2 <;> run_go [hp, e1, e2, spanRes]
    | err e =>
      rw [h1] at e1
      simp only [spanRes] at e1
      run_go [hp, e1, spanRes]
    | panic =>
      rw [h1] at e1
      simp only [spanRes] at e1
      run_go [hp, e1, spanRes]

theorem Insert_span (hf : need json path < fuel) (k v : Val) :
    exec (ctx fl fuel (d + 2)) fuel (Src.Insert.body.rest 3).first ⟨(), spanEnv json 0 0 [(go% index, k), (go% value, v), (go% path, .strs path)]⟩ =
    spanRes json (fun r : Nat × Nat => ⟨(), spanEnv json r.1 r.2 [(go% index, k), (go% value, v), (go% path, .strs path)]⟩) (containerSpan json 91 93 .arrayExpected path) := by
  have hf' : json.length < fuel := by unfold need at hf; omega
  simp only [Src.Insert, Stmt.rest, Stmt.first]
  rw [containerSpan]
  cases hp : path.length == 0
  · cases h : core json false path <;> run_go [run_core hf, hp, h, locVals, spanRes]
  · have e1 := Add_for1 (fl := fl) (d := d + 1) (json := json) (ρ := [(go% index, k), (go% value, v), (go% path, .strs path)]) hf' 0
    rw [rootSpan_eq]
    cases h1 : headOf json 91 .arrayExpected with
    | ok a =>
      have e2 := Add_for2 (fl := fl) (d := d + 1) (json := json) (ρ := [(go% index, k), (go% value, v), (go% path, .strs path)]) hf' a
      rw [h1] at e1
      simp only [spanRes] at e1
      cases h2 : tailOf json 93 .arrayExpected <;> rw [h2] at e2 <;> simp only [spanRes] at e2 <;> run_go [hp, show Src.Insert.for1 = Src.Add.for1 from rfl, show Src.Insert.for2 = Src.Add.for2 from rfl, e1, e2, spanRes]
    | err e =>
      rw [h1] at e1
      simp only [spanRes] at e1
      run_go [hp, show Src.Insert.for1 = Src.Add.for1 from rfl, e1, spanRes]
    | panic =>
      rw [h1] at e1
      simp only [spanRes] at e1
      run_go [hp, show Src.Insert.for1 = Src.Add.for1 from rfl, e1, spanRes]

@[go_run] theorem byteOf_zero : byteOf 0 = .ok 0 := rfl

theorem put_44 (n : Nat) : put (List.replicate (n + 1) (0 : UInt8)) 0 44 = .ok (44 :: List.replicate n 0) := by
  rw [put, if_pos ⟨by omega, by simp⟩]; rfl

theorem over_44 (w : Bytes) : over (44 :: List.replicate w.length (0 : UInt8)) 1 w = .ok (44 :: w) := by
  rw [over, if_pos ⟨by omega, by simp; omega⟩]
  simp; omega

theorem run_Add' (hf : need json path < fuel) (v : Option Bytes) :
    (jin fl).fn fuel (d + 3) (go% Add) true [.bytes json, optBytes v, .strs path] = mutVals (Add json (v.getD []) path) := by
  rw [fn_run (g := Src.Add) rfl]
  refine mut_body rfl ?_
  have hf' : json.length < fuel := by unfold need at hf; omega
  by_cases hl : json.length < 2
  · run_go [Src.Add, Add, lt_two, hl, Mut.res]
  have e1 := Add_span (fl := fl) (d := d) hf (optBytes v)
  simp only [Src.Add, Stmt.rest, Stmt.first] at e1
  cases h : containerSpan json 91 93 .arrayExpected path with
  | err e =>
    rw [h] at e1
    simp only [spanRes] at e1
    run_go [Src.Add, Add, lt_two, hl, Mut.res, ↓e1, h, Mut.bindOut]
  | panic =>
    rw [h] at e1
    simp only [spanRes] at e1
    run_go [Src.Add, Add, lt_two, hl, Mut.res, ↓e1, h, Mut.bindOut]
  | ok r =>
    obtain ⟨a, b⟩ := r
    have hb := containerSpan_le h
    rw [h] at e1
    simp only [spanRes] at e1
    have e2 := elem_pred json b
    cases h1 : json[a]? with
    | none => run_go [Src.Add, Add, lt_two, hl, Mut.res, ↓e1, h, Mut.bindOut, bracketsAt, idx_nat, h1, outOpt]
    | some x =>
      cases h2 : x == 91
      · run_go [Src.Add, Add, lt_two, hl, Mut.res, ↓e1, h, Mut.bindOut, bracketsAt, idx_nat, h1, h2, outOpt]
      rcases idx_cases json ((b : Int) - 1) with ⟨y, h3⟩ | h3
      · cases h4 : y == 93
        · run_go [Src.Add, Add, lt_two, hl, Mut.res, ↓e1, h, Mut.bindOut, bracketsAt, idx_nat, h1, h2, outOpt, e2, h3, h4]
        · have e3 := Add_for3 (fl := fl) (d := d + 1) (json := json) (ρ := [(go% value, optBytes v), (go% path, .strs path)]) hf' a b hb
          cases h5 : firstNS json (a + 1) (b - 1) with
          | none =>
            rw [h5] at e3
            rcases replace_cases json (v.getD []) ((b : Int) - 1) ((b : Int) - 1) with ⟨r, h6⟩ | h6 <;> cases v <;>
              simp only [Option.getD_none, Option.getD_some, optBytes, Option.isNone_none] at h6 e1 e3 <;>
              run_go [Src.Add, Add, lt_two, hl, Mut.res, ↓e1, h, Mut.bindOut, bracketsAt, idx_nat, h1, h2, outOpt, e2, h3, h4, e3, h5, h6,
                Option.getD_none, Option.getD_some, optBytes, Mut.ofOut]
          | some j =>
            rw [h5] at e3
            have m1 : ∀ n : Nat, ¬ ((n : Int) + 1 < 0) := by omega
            have m2 : ∀ n : Nat, ((n : Int) + 1).toNat = n + 1 := by omega
            have m3 : ¬ ((0 : Int) + 1 < 0) := by omega
            have m4 : ((0 : Int) + 1).toNat = 0 + 1 := by omega
            have m5 := over_44 []
            simp only [List.length_nil, List.replicate_zero] at m5
            rcases replace_cases json (44 :: v.getD []) ((b : Int) - 1) ((b : Int) - 1) with ⟨r, h6⟩ | h6 <;> cases v <;>
              simp only [Option.getD_none, Option.getD_some, optBytes, Option.isNone_some] at h6 e1 e3 <;>
              run_go [Src.Add, Add, lt_two, hl, Mut.res, ↓e1, h, Mut.bindOut, bracketsAt, idx_nat, h1, h2, outOpt, e2, h3, h4, e3, h5, h6,
                Option.getD_none, Option.getD_some, optBytes, Mut.ofOut, m1, m2, m3, m4, put_44, over_44, m5]
      · run_go [Src.Add, Add, lt_two, hl, Mut.res, ↓e1, h, Mut.bindOut, bracketsAt, idx_nat, h1, h2, outOpt, e2, h3]

@[go_run] theorem run_Add (hf : need json path < fuel) (v : Bytes) :
    (jin fl).fn fuel (d + 3) (go% Add) true [.bytes json, .bytes v, .strs path] = mutVals (Add json v path) :=
  run_Add' hf (some v)

theorem run_addKeyValue (hf : need json path < fuel) (key v : Bytes) (hf2 : need json (path ++ [key]) < fuel) :
    (jin fl).fn fuel (d + 3) (go% AddKeyValue) true [.bytes json, .bytes key, .bytes v, .strs path] = mutVals (addKeyValue json key v path) := by
  rw [fn_run (g := Src.AddKeyValue) rfl]
  refine mut_body rfl ?_
  have hf' : json.length < fuel := by unfold need at hf; omega
  by_cases hl : json.length < 2
  · run_go [Src.AddKeyValue, addKeyValue, lt_two, hl, Mut.res]
  have e1 := AddKeyValue_span (fl := fl) (d := d) hf (.bytes key) (.bytes v)
  simp only [Src.AddKeyValue, Stmt.rest, Stmt.first] at e1
  cases h : containerSpan json 123 125 .objectExpected path with
  | err e =>
    rw [h] at e1
    simp only [spanRes] at e1
    run_go [Src.AddKeyValue, addKeyValue, lt_two, hl, Mut.res, ↓e1, h, Mut.bindOut]
  | panic =>
    rw [h] at e1
    simp only [spanRes] at e1
    run_go [Src.AddKeyValue, addKeyValue, lt_two, hl, Mut.res, ↓e1, h, Mut.bindOut]
  | ok r =>
    obtain ⟨a, b⟩ := r
    have hb := containerSpan_le h
    rw [h] at e1
    simp only [spanRes] at e1
    have e2 := elem_pred json b
    cases h1 : json[a]? with
    | none => run_go [Src.AddKeyValue, addKeyValue, lt_two, hl, Mut.res, ↓e1, h, Mut.bindOut, bracketsAt, idx_nat, h1, outOpt]
    | some x =>
      cases h2 : x == 123
      · run_go [Src.AddKeyValue, addKeyValue, lt_two, hl, Mut.res, ↓e1, h, Mut.bindOut, bracketsAt, idx_nat, h1, h2, outOpt]
      rcases idx_cases json ((b : Int) - 1) with ⟨y, h3⟩ | h3
      · cases h4 : y == 125
        · run_go [Src.AddKeyValue, addKeyValue, lt_two, hl, Mut.res, ↓e1, h, Mut.bindOut, bracketsAt, idx_nat, h1, h2, outOpt, e2, h3, h4]
        · have e3 := AddKeyValue_for3 (fl := fl) (d := d + 1) (json := json) (ρ := [(go% key, .bytes key), (go% value, .bytes v), (go% path, .strs path)]) hf' a b hb
          cases h5 : firstNS json (a + 1) (b - 1) with
          | none =>
            rw [h5] at e3
            simp only [Option.isNone_none] at e3
            rcases replace_cases json (34 :: key ++ [34, 58] ++ v) ((b : Int) - 1) ((b : Int) - 1) with ⟨r, h6⟩ | h6 <;>
              simp only [List.cons_append, List.nil_append, List.append_assoc] at h6 <;>
              run_go [Src.AddKeyValue, addKeyValue, lt_two, hl, Mut.res, ↓e1, h, Mut.bindOut, bracketsAt, idx_nat, h1, h2, outOpt, e2, h3, h4, e3, h5, h6,
                List.append_assoc, Mut.ofOut]
          | some j =>
            rw [h5] at e3
            simp only [Option.isNone_some] at e3
            cases h7 : core json false (path ++ [key]) with
            | ok l =>
              run_go [Src.AddKeyValue, addKeyValue, lt_two, hl, Mut.res, ↓e1, h, Mut.bindOut, bracketsAt, idx_nat, h1, h2, outOpt, e2, h3, h4, e3, h5,
                run_core hf2, h7, locVals]
            | panic =>
              run_go [Src.AddKeyValue, addKeyValue, lt_two, hl, Mut.res, ↓e1, h, Mut.bindOut, bracketsAt, idx_nat, h1, h2, outOpt, e2, h3, h4, e3, h5,
                run_core hf2, h7, locVals]
            | err e =>
              cases h8 : errEqual (some e) codeKeyNotFound
              · run_go [Src.AddKeyValue, addKeyValue, lt_two, hl, Mut.res, ↓e1, h, Mut.bindOut, bracketsAt, idx_nat, h1, h2, outOpt, e2, h3, h4, e3, h5,
                  run_core hf2, h7, locVals, h8]
              · rcases replace_cases json (44 :: 34 :: key ++ [34, 58] ++ v) ((b : Int) - 1) ((b : Int) - 1) with ⟨r, h6⟩ | h6 <;>
                  simp only [List.cons_append, List.nil_append, List.append_assoc] at h6 <;>
                  run_go [Src.AddKeyValue, addKeyValue, lt_two, hl, Mut.res, ↓e1, h, Mut.bindOut, bracketsAt, idx_nat, h1, h2, outOpt, e2, h3, h4, e3, h5,
                    run_core hf2, h7, locVals, h8, h6, List.append_assoc, Mut.ofOut]
      · run_go [Src.AddKeyValue, addKeyValue, lt_two, hl, Mut.res, ↓e1, h, Mut.bindOut, bracketsAt, idx_nat, h1, h2, outOpt, e2, h3]

theorem run_AddKeyValue' (hf : need json path < fuel) (key : Bytes) (v : Option Bytes) (hf2 : need json (path ++ [key]) < fuel) :
    (jin fl).fn fuel (d + 4) (go% AddKeyValue) true [.bytes json, .bytes key, optBytes v, .strs path] =
      mutVals (AddKeyValue json key v path) := by
  cases v with
  | some v => exact run_addKeyValue (d := d + 1) hf key v hf2
  | none =>
    have ht : bNull = [110, 117, 108, 108] := rfl
    rw [fn_run (g := Src.AddKeyValue) rfl]
    refine mut_body rfl ?_
    rcases Mut.forms (addKeyValue json key bNull path) with ⟨b, h⟩ | ⟨b, e, h⟩ | h <;>
      run_go [Src.AddKeyValue, AddKeyValue, ← ht, run_addKeyValue hf key _ hf2, h, mutVals, Mut.res, optBytes]

@[go_run] theorem run_AddKeyValue (hf : need json path < fuel) (key v : Bytes) (hf2 : need json (path ++ [key]) < fuel) :
    (jin fl).fn fuel (d + 4) (go% AddKeyValue) true [.bytes json, .bytes key, .bytes v, .strs path] =
      mutVals (AddKeyValue json key (some v) path) :=
  run_AddKeyValue' hf key (some v) hf2

end

end Jin.Go
