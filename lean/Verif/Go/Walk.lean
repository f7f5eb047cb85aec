import Verif.Go.JO
import Verif.Go.Param
import Verif.Proof.Depth
/-!
# Go.Walk — `Walk` of the text
-/

namespace Jin.Go

section
variable {σ : Type} {fl : FloatLib UInt64} {fuel d : Nat} {json : Bytes} {path : List Bytes} {C : σ → List Val → R (σ × List Val)}

theorem fnIn_run {fl : FloatLib UInt64} {f : Id} {g : Func} (h : (jin fl).funcs.find? (fun g => g.name == f) = some g)
    (fuel depth : Nat) {V : Type} (cb : V → List Val → R (V × List Val)) (spread : Bool) (args : List Val) (v : V) :
    (jin fl).fnIn fuel (depth + 1) cb f spread args v = g.run (cbCtx fl fuel depth cb) fuel spread args v := by
  simp only [Prog.fnIn, h]
  rfl

@[go_run] theorem cbCtx_fnIn {V : Type} (cb : V → List Val → R (V × List Val)) (f : Id) (sp : Bool) (vs : List Val) (v : V) :
    (cbCtx fl fuel d C).fnIn cb f sp vs v = (jin fl).fnIn fuel d cb f sp vs v := rfl

@[go_run] theorem cb_TypeObject : (cbCtx fl fuel d C).const (go% TypeObject) = some (.bytes (typeName .object)) := rfl
@[go_run] theorem cb_TypeArray : (cbCtx fl fuel d C).const (go% TypeArray) = some (.bytes (typeName .array)) := rfl

/-- A function literal as the callback of a call. -/
def litCb (Γ : Ctx σ) (fuel : Nat) (ps caps : List Id) (body : Stmt) : St σ → List Val → R (St σ × List Val) :=
  fun s vs => (bindVars true ps vs ((0, .nil) :: s.env)).bind fun env => closing caps s.env (exec Γ fuel body ⟨s.w, env⟩)

theorem litCb_eq (Γ : Ctx σ) (fuel : Nat) (ps caps : List Id) (body : Stmt) : litCb Γ fuel ps caps body =
    fun s vs => (bindVars true ps vs ((0, .nil) :: s.env)).bind fun env => closing caps s.env (exec Γ fuel body ⟨s.w, env⟩) := rfl

/-- A callback with three parameters. -/
def cb3 (cb : σ → Bytes → Bytes → List Bytes → Cb σ) (u : σ) : List Val → R (σ × List Val)
  | [.bytes k, .bytes v, .strs p] => Cb.vals (cb u k v p)
  | _ => .stuck

@[go_run] theorem cb3_apply (cb : σ → Bytes → Bytes → List Bytes → Cb σ) (u : σ) (k v : Bytes) (p : List Bytes) :
    cb3 cb u [.bytes k, .bytes v, .strs p] = Cb.vals (cb u k v p) := rfl

theorem natDigits_length (n : Nat) : (natDigits 10 n).length ≤ n + 1 := by
  fun_induction natDigits 10 n <;> simp <;> omega

theorem itoa_length (n : Nat) : (itoa n).length ≤ n + 1 := by
  have : ¬ ((n : Int) < 0) := by omega
  simp only [itoa, this, if_false, Int.natAbs_natCast]
  exact natDigits_length n

/-- What walk does for an entry of an object. -/
def walkKey (m : Bytes → σ → IterRes σ) (u : σ) (k _v : Bytes) : Cb σ :=
  match m k u with
  | .panic => .panic
  | .done u (some e) => .ret u false (some e)
  | .done u none => .ret u true none

/-- What walk does for an element of an array. -/
def walkIdx (m : Bytes → σ → IterRes σ) (u : σ × Nat) (_v : Bytes) : Cb (σ × Nat) :=
  match m (itoa u.2) u.1 with
  | .panic => .panic
  | .done u' (some e) => .ret (u', u.2) false (some e)
  | .done u' none => .ret (u', u.2 + 1) true none

def keyC (json : Bytes) (m : Bytes → σ → IterRes σ) (u : σ) : List Val → R (σ × List Val)
  | [.bytes k, .bytes v] => if k.length ≤ json.length then Cb.vals (walkKey m u k v) else .stuck
  | [.nil, .bytes v] => Cb.vals (walkKey m u [] v)
  | _ => .stuck

def idxC (json : Bytes) (m : Bytes → σ → IterRes σ) (u : σ × Nat) : List Val → R ((σ × Nat) × List Val)
  | [.bytes v] => if u.2 ≤ json.length then Cb.vals (walkIdx m u v) else .stuck
  | _ => .stuck

/-- The variables of walk in the branch for objects. -/
def walkEnv (json : Bytes) (path : List Bytes) (t e : Val) : Env :=
  [(0, .nil), (go% switch, t), (0, .nil), (go% err, e), (go% t, t), (0, .nil), (go% json, .bytes json), (go% path, .strs path), (go% callback, .nil)]

variable {cb : σ → Bytes → Bytes → List Bytes → Cb σ}

theorem walk_obj (hf : need json path < fuel) (m : Bytes → σ → IterRes σ) (t : Val)
    (hw : ∀ k u, k.length ≤ json.length + 1 → (jin fl).fnIn fuel (d + 6) C (go% walk) false [.bytes json, .strs (path ++ [k]), .nil] u = iterVal (m k u)) (u : σ) :
    match IterateKeyValue json (walkKey m) path u with
    | .done u' e => ∃ v, (jin fl).fnIn fuel (d + 6) (litCb (cbCtx fl fuel (d + 6) C) fuel [go% keyBytes, 0] [go% err] Src.walk.lit1) (go% IterateKeyValue) true
        [.bytes json, .nil, .strs path] ⟨u, walkEnv json path t .nil⟩ = .ok (⟨u', walkEnv json path t v⟩, [match e with | some e => .err e | none => .nil])
    | .panic => (jin fl).fnIn fuel (d + 6) (litCb (cbCtx fl fuel (d + 6) C) fuel [go% keyBytes, 0] [go% err] Src.walk.lit1) (go% IterateKeyValue) true
        [.bytes json, .nil, .strs path] ⟨u, walkEnv json path t .nil⟩ = .panic := by
  have hl := run_IterateKeyValueC (fl := fl) (d := d + 2) hf (walkKey m) (keyC json m) (fun _ _ => rfl) (fun u k v h => by rw [keyC, if_pos h]) u
  let S : σ → St σ → Prop := fun u s => s.w = u ∧ ∃ v, s.env = walkEnv json path t v
  have hS : CbRel S (keyC json m) (litCb (cbCtx fl fuel (d + 6) C) fuel [go% keyBytes, 0] [go% err] Src.walk.lit1) := by
    rintro w0 ⟨w, env⟩ vs ⟨h1, v, h2⟩
    simp only at h1 h2
    subst h1 h2
    have key : ∀ kv k x, kv.bytes? = .ok k → k.length ≤ json.length →
        RRel S (Cb.vals (walkKey m w k x)) (litCb (cbCtx fl fuel (d + 6) C) fuel [go% keyBytes, 0] [go% err] Src.walk.lit1 ⟨w, walkEnv json path t v⟩ [kv, .bytes x]) := by
      intro kv k x hk hx
      have hw := hw k w (by omega)
      rcases h : m k w with ⟨u', _ | e⟩ | _ <;> rw [h] at hw <;> simp only [iterVal] at hw <;>
        run_go [walkKey, h, litCb, Src.walk.lit1, walkEnv, hw, hk, closing]
      · exact ⟨_, rfl, rfl, _, rfl⟩
      · exact ⟨_, rfl, rfl, _, rfl⟩
      · rfl
    unfold keyC
    split
    · split
      · exact key _ _ _ rfl ‹_›
      · trivial
    · exact key _ _ _ rfl (Nat.zero_le _)
    · trivial
  have hr := fnIn_rel (jin fl) fuel (d + 6) S _ _ (go% IterateKeyValue) true [.bytes json, .nil, .strs path] u ⟨u, walkEnv json path t .nil⟩ hS ⟨rfl, _, rfl⟩
  rw [fnIn_run (g := Src.IterateKeyValue) rfl, hl] at hr
  rcases h : IterateKeyValue json (walkKey m) path u with ⟨u', _ | e⟩ | _ <;> rw [h] at hr
  · obtain ⟨⟨_, _⟩, h1, rfl, v, rfl⟩ := hr; exact ⟨v, h1⟩
  · obtain ⟨⟨_, _⟩, h1, rfl, v, rfl⟩ := hr; exact ⟨v, h1⟩
  · exact hr

theorem walk_arr (hf : need json path < fuel) (m : Bytes → σ → IterRes σ) (t : Val)
    (hw : ∀ k u, k.length ≤ json.length + 1 → (jin fl).fnIn fuel (d + 6) C (go% walk) false [.bytes json, .strs (path ++ [k]), .nil] u = iterVal (m k u)) (u : σ) :
    match IterateArray json (walkIdx m) path (u, 0) with
    | .done u' e => ∃ v, (jin fl).fnIn fuel (d + 6) (litCb (cbCtx fl fuel (d + 6) C) fuel [0] [go% err, go% i] Src.walk.lit2) (go% IterateArray) true
        [.bytes json, .nil, .strs path] ⟨u, (go% i, .int 0) :: walkEnv json path t .nil⟩ = .ok (⟨u'.1, (go% i, .int u'.2) :: walkEnv json path t v⟩, [match e with | some e => .err e | none => .nil])
    | .panic => (jin fl).fnIn fuel (d + 6) (litCb (cbCtx fl fuel (d + 6) C) fuel [0] [go% err, go% i] Src.walk.lit2) (go% IterateArray) true
        [.bytes json, .nil, .strs path] ⟨u, (go% i, .int 0) :: walkEnv json path t .nil⟩ = .panic := by
  have hl := run_IterateArrayC (fl := fl) (d := d + 2) hf (walkIdx m) (idxC json m) (fun i u => u.2 ≤ i) (fun i u v h h' => by rw [idxC, if_pos (by omega)])
    (fun i u h => by omega) (by
      intro i u v u' h h'
      rw [walkIdx] at h'
      split at h' <;> cases h'
      show u.2 + 1 ≤ i + 1
      omega) (u, 0) (fun i => Nat.zero_le i)
  let S : σ × Nat → St σ → Prop := fun u s => s.w = u.1 ∧ ∃ v, s.env = (go% i, .int u.2) :: walkEnv json path t v
  have hS : CbRel S (idxC json m) (litCb (cbCtx fl fuel (d + 6) C) fuel [0] [go% err, go% i] Src.walk.lit2) := by
    rintro ⟨w0, n⟩ ⟨w, env⟩ vs ⟨h1, v, h2⟩
    simp only at h1 h2
    subst h1 h2
    unfold idxC
    split
    · split
      · have hi : n ≤ json.length := ‹_›
        have hw := hw (itoa n) w (by have := itoa_length n; omega)
        rcases h : m (itoa n) w with ⟨u', _ | e⟩ | _ <;> rw [h] at hw <;> simp only [iterVal] at hw <;>
          run_go [walkIdx, h, litCb, Src.walk.lit2, walkEnv, hw, closing]
        · exact ⟨_, rfl, rfl, _, rfl⟩
        · exact ⟨_, rfl, rfl, _, rfl⟩
        · rfl
      · trivial
    · trivial
  have hr := fnIn_rel (jin fl) fuel (d + 6) S _ _ (go% IterateArray) true [.bytes json, .nil, .strs path] (u, 0) ⟨u, (go% i, .int 0) :: walkEnv json path t .nil⟩ hS ⟨rfl, _, rfl⟩
  rw [fnIn_run (g := Src.IterateArray) rfl, hl] at hr
  rcases h : IterateArray json (walkIdx m) path (u, 0) with ⟨u', _ | e⟩ | _ <;> rw [h] at hr
  · obtain ⟨⟨_, _⟩, h1, rfl, v, rfl⟩ := hr; exact ⟨v, h1⟩
  · obtain ⟨⟨_, _⟩, h1, rfl, v, rfl⟩ := hr; exact ⟨v, h1⟩
  · exact hr

theorem typeName_ne {t : JType} (h : t ≠ .object) : (typeName t == typeName .object) = false := by
  cases t <;> first | rfl | exact absurd rfl h

theorem typeName_ne' {t : JType} (h : t ≠ .array) : (typeName t == typeName .array) = false := by
  cases t <;> first | rfl | exact absurd rfl h

theorem typeName_arr : (typeName .array == typeName .object) = false := rfl

theorem last_elem {path : List Bytes} (hp : (path.length == 0) = false) :
    elem path ((path.length : Int) - 1) = .ok (path.getLast?.getD []) := by
  have hl : path.length ≠ 0 := beq_eq_false_iff_ne.1 hp
  rw [elem, if_neg (by omega), show ((path.length : Int) - 1).toNat = path.length - 1 by omega, ← List.getLast?_eq_getElem?]
  cases h : path.getLast? with
  | none => rw [List.getLast?_eq_none_iff] at h; subst h; exact absurd rfl hl
  | some a => rfl

theorem walk_body (hf : need json path < fuel) (n : Nat)
    (hw : path.length < json.length → ∀ k u, k.length ≤ json.length + 1 →
      (jin fl).fnIn fuel (d + 6) (cb3 cb) (go% walk) false [.bytes json, .strs (path ++ [k]), .nil] u = iterVal (walk (fun s => (fl.parse s).isSome) json cb n (path ++ [k]) u)) (u : σ) :
    exec (cbCtx fl fuel (d + 6) (cb3 cb)) fuel Src.walk.body ⟨u, [(go% json, .bytes json), (go% path, .strs path), (go% callback, .nil)]⟩ =
      iterRes (walk (fun s => (fl.parse s).isSome) json cb (n + 1) path u) := by
  rw [walk]
  cases h : GetType (fun s => (fl.parse s).isSome) json path with
  | err e => run_go [Src.walk, run_GetType hf, h, oneVal, iterRes]
  | panic => run_go [Src.walk, run_GetType hf, h, oneVal, iterRes]
  | ok t =>
    have hw := hw (Depth.GetType_length h)
    by_cases h1 : t = .object
    · subst h1
      have e := walk_obj hf (fun k => walk (fun s => (fl.parse s).isSome) json cb n (path ++ [k])) (.bytes (typeName .object)) hw u
      show _ = iterRes (IterateKeyValue json (walkKey fun k => walk (fun s => (fl.parse s).isSome) json cb n (path ++ [k])) path u)
      simp only [litCb_eq, walkEnv] at e
      rcases h2 : IterateKeyValue json (walkKey fun k => walk (fun s => (fl.parse s).isSome) json cb n (path ++ [k])) path u with ⟨u', _ | x⟩ | _ <;> rw [h2] at e
      · obtain ⟨v, e⟩ := e
        simp only at e
        run_go [Src.walk, run_GetType hf, h, oneVal, iterRes, e]
      · obtain ⟨v, e⟩ := e
        simp only at e
        run_go [Src.walk, run_GetType hf, h, oneVal, iterRes, e]
      · simp only at e
        run_go [Src.walk, run_GetType hf, h, oneVal, iterRes, e]
    by_cases h2 : t = .array
    · subst h2
      have e := walk_arr hf (fun k => walk (fun s => (fl.parse s).isSome) json cb n (path ++ [k])) (.bytes (typeName .array)) hw u
      show _ = iterRes (match IterateArray json (walkIdx fun k => walk (fun s => (fl.parse s).isSome) json cb n (path ++ [k])) path (u, 0) with
        | .panic => .panic
        | .done u e => .done u.1 e)
      simp only [litCb_eq, walkEnv] at e
      rcases h2 : IterateArray json (walkIdx fun k => walk (fun s => (fl.parse s).isSome) json cb n (path ++ [k])) path (u, 0) with ⟨u', _ | x⟩ | _ <;> rw [h2] at e
      · obtain ⟨v, e⟩ := e
        simp only at e
        run_go [Src.walk, run_GetType hf, h, oneVal, iterRes, typeName_arr, e]
      · obtain ⟨v, e⟩ := e
        simp only at e
        run_go [Src.walk, run_GetType hf, h, oneVal, iterRes, typeName_arr, e]
      · simp only at e
        run_go [Src.walk, run_GetType hf, h, oneVal, iterRes, typeName_arr, e]
    have e : exec (cbCtx fl fuel (d + 6) (cb3 cb)) fuel Src.walk.body ⟨u, [(go% json, .bytes json), (go% path, .strs path), (go% callback, .nil)]⟩ =
      iterRes (match Get json path with
      | .panic => .panic
      | .err e => .done u (some e)
      | .ok val =>
        match cb u (path.getLast?.getD []) val path with
        | .panic => .panic
        | .ret u _ e => .done u e) := by
      cases hp : path.length == 0
      · cases hg : Get json path with
        | err e => run_go [Src.walk, run_GetType hf, h, oneVal, iterRes, typeName_ne h1, typeName_ne' h2, hp, last_elem hp, run_Get hf, hg]
        | panic => run_go [Src.walk, run_GetType hf, h, oneVal, iterRes, typeName_ne h1, typeName_ne' h2, hp, last_elem hp, run_Get hf, hg]
        | ok v =>
          rcases hc : cb u (path.getLast?.getD []) v path with ⟨u', _ | _, _ | x⟩ | _ <;>
            run_go [Src.walk, run_GetType hf, h, oneVal, iterRes, typeName_ne h1, typeName_ne' h2, hp, last_elem hp, run_Get hf, hg, hc]
      · have hl : path.getLast?.getD [] = [] := by
          rw [List.length_eq_zero_iff.1 (eq_of_beq hp)]; rfl
        rw [hl]
        cases hg : Get json path with
        | err e => run_go [Src.walk, run_GetType hf, h, oneVal, iterRes, typeName_ne h1, typeName_ne' h2, hp, run_Get hf, hg]
        | panic => run_go [Src.walk, run_GetType hf, h, oneVal, iterRes, typeName_ne h1, typeName_ne' h2, hp, run_Get hf, hg]
        | ok v =>
          rcases hc : cb u [] v path with ⟨u', _ | _, _ | x⟩ | _ <;>
            run_go [Src.walk, run_GetType hf, h, oneVal, iterRes, typeName_ne h1, typeName_ne' h2, hp, run_Get hf, hg, hc]
    rw [e]
    cases t
    · exact absurd rfl h2
    · exact absurd rfl h1
    all_goals rfl

theorem sum_le {l : List Nat} {b : Nat} (h : ∀ x ∈ l, x ≤ b) : l.sum ≤ l.length * b := by
  induction l with
  | nil => simp
  | cons a l ih =>
    have h1 := h a (by simp)
    have h2 := ih fun x hx => h x (by simp [hx])
    simp [Nat.add_mul]; omega

theorem need_lt (hf : json.length + json.length * (json.length + 2) < fuel) (hl : path.length ≤ json.length) (hk : ∀ k ∈ path, k.length ≤ json.length + 1) :
    need json path < fuel := by
  have h1 : (path.map List.length).sum ≤ path.length * (json.length + 1) := by
    have := sum_le (l := path.map List.length) (b := json.length + 1) (by simpa using hk)
    simpa using this
  have h2 : path.length * (json.length + 2) ≤ json.length * (json.length + 2) := Nat.mul_le_mul_right _ hl
  have h3 : path.length * (json.length + 2) = path.length * (json.length + 1) + path.length := by rw [← Nat.mul_succ]
  unfold need
  omega

theorem run_walk (hf : json.length + json.length * (json.length + 2) < fuel) : ∀ n path (u : σ), path.length + n = json.length → (∀ k ∈ path, k.length ≤ json.length + 1) →
    (jin fl).fnIn fuel (d + 7 + n) (cb3 cb) (go% walk) false [.bytes json, .strs path, .nil] u =
      iterVal (walk (fun s => (fl.parse s).isSome) json cb (n + 1) path u) := by
  intro n
  induction n with
  | zero =>
    intro path u hl hk
    rw [show d + 7 + 0 = (d + 6) + 1 by omega, fnIn_run (g := Src.walk) rfl]
    exact iter_body rfl (walk_body (need_lt hf (by omega) hk) 0 (fun h => absurd h (by omega)) u)
  | succ n ih =>
    intro path u hl hk
    rw [show d + 7 + (n + 1) = (d + (n + 1) + 6) + 1 by omega, fnIn_run (g := Src.walk) rfl]
    refine iter_body rfl (walk_body (need_lt hf (by omega) hk) (n + 1) (fun h k u hk' => ?_) u)
    rw [show d + (n + 1) + 6 = d + 7 + n by omega]
    refine ih _ u (by simp; omega) fun x hx => ?_
    rcases List.mem_append.1 hx with h | h
    · exact hk x h
    · rw [List.mem_singleton.1 h]; exact hk'

/-- `f(args…)` for a function that has a function as a parameter ends with `r`. -/
def CallCb (fl : FloatLib UInt64) (C : σ → List Val → R (σ × List Val)) (f : Id) (args : List Val) (u : σ) (r : R (σ × List Val)) : Prop :=
  ∃ N, ∀ fuel depth, N ≤ fuel → N ≤ depth → (jin fl).fnIn fuel depth C f false args u = r

theorem text_walk (fl : FloatLib UInt64) (json : Bytes) (cb : σ → Bytes → Bytes → List Bytes → Cb σ) (u : σ) :
    CallCb fl (cb3 cb) (go% walk) [.bytes json, .strs [], .nil] u (iterVal (Walk (fun s => (fl.parse s).isSome) json cb u)) := by
  refine ⟨json.length + json.length * (json.length + 2) + 7, fun fuel depth hf hd => ?_⟩
  obtain ⟨d, rfl⟩ : ∃ d, depth = d + 7 + json.length := ⟨depth - (7 + json.length), by omega⟩
  exact run_walk (by omega) json.length [] u (by simp) (by simp)

/-- `Walk`, walk.go:10-13 -/
theorem text_Walk (fl : FloatLib UInt64) (json : Bytes) (cb : σ → Bytes → Bytes → List Bytes → Cb σ) (u : σ) :
    CallCb fl (cb3 cb) (go% Walk) [.bytes json, .nil] u (iterVal (Walk (fun s => (fl.parse s).isSome) json cb u)) := by
  obtain ⟨N, h⟩ := text_walk fl json cb u
  refine ⟨N + 1, fun fuel depth hf hd => ?_⟩
  obtain ⟨d, rfl⟩ : ∃ d, depth = d + 1 := ⟨depth - 1, by omega⟩
  rw [fnIn_run (g := Src.Walk) rfl]
  refine iter_body rfl ?_
  have h := h fuel d (by omega) (by omega)
  rcases hr : Walk (fun s => (fl.parse s).isSome) json cb u with ⟨u', _ | e⟩ | _ <;> rw [hr] at h <;> simp only [iterVal] at h <;>
    run_go [Src.Walk, h, iterRes]

/-- `JO.Walk`, walk.go:5-8 -/
theorem text_JO_Walk (fl : FloatLib UInt64) (json : Bytes) (cb : σ → Bytes → Bytes → List Bytes → Cb σ) (u : σ) :
    CallCb fl (cb3 cb) (go% JO.Walk) [.bytes json, .nil] u ((iterVal (Walk (fun s => (fl.parse s).isSome) json cb u)).bind fun r => .ok (r.1, .bytes json :: r.2)) := by
  obtain ⟨N, h⟩ := text_walk fl json cb u
  refine ⟨N + 1, fun fuel depth hf hd => ?_⟩
  obtain ⟨d, rfl⟩ : ∃ d, depth = d + 1 := ⟨depth - 1, by omega⟩
  rw [fnIn_run (g := Src.JO.Walk) rfl]
  have h := h fuel d (by omega) (by omega)
  rcases hr : Walk (fun s => (fl.parse s).isSome) json cb u with ⟨u', _ | e⟩ | _ <;> rw [hr] at h <;> simp only [iterVal] at h <;>
    run_go [Func.run, bindParams, Src.JO.Walk, h, iterVal]

end
end Jin.Go
