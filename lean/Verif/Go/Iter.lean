import Verif.Go.Keys
/-!
# Go.Iter — `IterateArray` and `IterateKeyValue` of the text

A function value is not a value of `Go.Sem`: the text gets it from the context, and the parameter holds nil.
-/

namespace Jin.Go

/-- What a callback gives the text. -/
def Cb.vals {σ : Type} : Cb σ → R (σ × List Val)
  | .ret u k none => .ok (u, [.bool k, .nil])
  | .ret u k (some e) => .ok (u, [.bool k, .err e])
  | .panic => .panic

@[go_run] theorem Cb.vals_none {σ : Type} (u : σ) (k : Bool) : Cb.vals (.ret u k none) = .ok (u, [.bool k, .nil]) := rfl
@[go_run] theorem Cb.vals_some {σ : Type} (u : σ) (k : Bool) (e : Err) : Cb.vals (.ret u k (some e)) = .ok (u, [.bool k, .err e]) := rfl
@[go_run] theorem Cb.vals_panic {σ : Type} : Cb.vals (.panic : Cb σ) = .panic := rfl

/-- A callback with one parameter. -/
def cb1 {σ : Type} (cb : σ → Bytes → Cb σ) (u : σ) : List Val → R (σ × List Val)
  | [.bytes v] => Cb.vals (cb u v)
  | _ => .stuck

@[go_run] theorem cb1_apply {σ : Type} (cb : σ → Bytes → Cb σ) (u : σ) (v : Bytes) : cb1 cb u [.bytes v] = Cb.vals (cb u v) := rfl

/-- A callback with two parameters; a nil slice has no bytes. -/
def cb2 {σ : Type} (cb : σ → Bytes → Bytes → Cb σ) (u : σ) : List Val → R (σ × List Val)
  | [.bytes k, .bytes v] => Cb.vals (cb u k v)
  | [.nil, .bytes v] => Cb.vals (cb u [] v)
  | _ => .stuck

/-- What a function sees that has a function parameter. -/
def cbCtx {σ : Type} (fl : FloatLib UInt64) (fuel depth : Nat) (cb : σ → List Val → R (σ × List Val)) : Ctx σ :=
  (jin fl).ctx fuel depth cb

/-- What the iterators return. -/
def iterRes {σ : Type} : IterRes σ → Res σ
  | .done u none => .ret u [.nil]
  | .done u (some e) => .ret u [.err e]
  | .panic => .panic

def iterVal {σ : Type} : IterRes σ → R (σ × List Val)
  | .done u none => .ok (u, [.nil])
  | .done u (some e) => .ok (u, [.err e])
  | .panic => .panic

theorem iterRes_ends {σ : Type} (r : IterRes σ) : (iterRes r).ends = true := by
  rcases r with ⟨u, _ | e⟩ | _ <;> rfl

theorem iter_body {σ : Type} {f : Func} {Γ : Ctx σ} {fuel : Nat} {sp : Bool} {args : List Val} {env : Env} {m : IterRes σ} {u : σ}
    (h1 : bindParams f.variadic sp f.params args = .ok env) (h2 : exec Γ fuel f.body ⟨u, env⟩ = iterRes m) :
    f.run Γ fuel sp args u = iterVal m := by
  rw [Func.run, h1]
  simp only [R.bind, h2]
  rcases m with ⟨u, _ | e⟩ | _ <;> rfl

section
variable {σ : Type} {fl : FloatLib UInt64} {fuel d : Nat} {sp : Bool} {json : Bytes} {path : List Bytes}
  {cb : σ → List Val → R (σ × List Val)}

@[go_run] theorem cbCtx_fn : (cbCtx fl fuel d cb).fn = (jin fl).fn fuel d := rfl
@[go_run] theorem cbCtx_cb : (cbCtx fl fuel d cb).cb = cb := rfl

/-- `for space(json[i]) { if … { return … } i++ }` where the last byte is the end. -/
theorem loop_skip_end {c : St σ → R Bool} {post body : St σ → Res σ} (E : Nat → St σ) (r : Res σ)
    (hc : ∀ i, c (E i) = match json[i]? with | some ch => .ok (space ch) | none => .panic)
    (hb : ∀ i, i + 1 < json.length → (body (E i)).goes = some (E (i + 1)))
    (hr : ∀ i, i + 1 = json.length → body (E i) = r) (hr' : r.ends = true)
    (hp : ∀ i, post (E i) = .norm (E i)) :
    ∀ n i, i < json.length → json.length - i < n → loopN c post body n (E i) =
      match skipSpaces json i with | some j => .norm (E j) | none => r := by
  intro n
  induction n with
  | zero => intro i _ h; omega
  | succ n ih =>
    intro i hi hn
    have hs : skipSpaces json i = match json[i]? with
        | none => none
        | some c => if space c then skipSpaces json (i + 1) else some i := by
      rw [skipSpaces]; split <;> simp_all
    rw [hs, List.getElem?_eq_getElem hi]
    cases hs : space json[i] with
    | true =>
      by_cases hl : i + 1 = json.length
      · rw [loopN_ends (by rw [hc, List.getElem?_eq_getElem hi]; simp [hs]) (by rw [hr i hl, hr']), hr i hl]
        have : skipSpaces json (i + 1) = none := by
          rw [skipSpaces]; split <;> simp_all
        simp [hs, this]
      · rw [loopN_goes (by rw [hc, List.getElem?_eq_getElem hi]; simp [hs]) (hb i (by omega)), hp]
        simp only [Res.andThen, if_true, hs]
        exact ih (i + 1) (by omega) (by omega)
    | false =>
      rw [loopN_end (by rw [hc, List.getElem?_eq_getElem hi]; simp [hs])]
      simp [hs]

/-- `for k := i - 1; k > 0; k-- { … }` -/
theorem loop_quote1 {c : St σ → R Bool} {post body : St σ → Res σ} {i : Nat} (E : Int → St σ)
    (A B C : Res σ)
    (hc : ∀ n : Int, c (E n) = .ok (decide (0 < n)))
    (hp : ∀ n : Int, post (E n) = .norm (E (n - 1)))
    (hl : ∀ n : Int, (Res.norm (E n)).leave = C)
    (hb : ∀ (n : Nat) (ch : UInt8), n < i → json[n]? = some ch →
      if ch == 92 then (body (E n)).goes = some (E n)
      else if (i - n) % 2 != 0 then (body (E n)).stops = some A else (body (E n)).stops = some B)
    (hi : i ≤ json.length) :
    ∀ k m, m ≤ i → m < k → (loopN c post body k (E ((m : Int) - 1))).leave =
      match quoteScan1 json i m with | .real => A | .escaped => B | .off => C := by
  intro k
  induction k with
  | zero => intro m _ h; omega
  | succ k ih =>
    intro m hm hk
    match m with
    | 0 =>
      rw [loopN_end (by rw [hc]; simp), hl]
      rfl
    | 1 =>
      rw [loopN_end (by rw [hc]; simp), hl]
      rfl
    | m + 2 =>
      have hlt : m + 1 < json.length := by omega
      have hb := hb (m + 1) json[m + 1] (by omega) (List.getElem?_eq_getElem hlt)
      have e : ((m + 2 : Nat) : Int) - 1 = ((m + 1 : Nat) : Int) := by omega
      have hct : c (E ((m + 1 : Nat) : Int)) = .ok true := by rw [hc, decide_eq_true (by omega)]
      rw [quoteScan1, List.getElem?_eq_getElem hlt]
      rw [e]
      by_cases h : json[m + 1] = 92
      · rw [h] at hb
        simp only [beq_self_eq_true, if_true] at hb
        rw [loopN_goes hct hb, hp]
        simp only [Res.andThen]
        rw [ih (m + 1) (by omega) (by omega)]
        simp [h]
      · have hx : (json[m + 1] == 92) = false := by simp [h]
        rw [hx] at hb
        simp only [Bool.false_eq_true, if_false] at hb
        by_cases ho : (i - (m + 1)) % 2 = 0
        · rw [ho] at hb
          simp only [bne_self_eq_false, Bool.false_eq_true, if_false] at hb
          rw [loopN_stops hct hb]
          simp [h, ho]
        · have hx : ((i - (m + 1)) % 2 != 0) = true := bne_iff_ne.2 ho
          have hy : (some json[m + 1] != some 92) = true := by simp [h]
          rw [hx, if_pos rfl] at hb
          rw [loopN_stops hct hb, hx, hy, if_pos rfl, if_pos rfl]

/-! ### IterateArray -/

theorem ia_for1 (hf : json.length < fuel) (hl : 0 < json.length) (u : σ) (ρ : Env) :
    exec (cbCtx fl fuel (d + 1) cb) fuel Src.IterateArray.for1 ⟨u, (go% err, .nil) :: (go% start, .int 0) :: (0, .nil) :: (go% json, .bytes json) :: ρ⟩ =
    match skipSpaces json 0 with
    | some j => .norm ⟨u, (go% err, .nil) :: (go% start, .int j) :: (0, .nil) :: (go% json, .bytes json) :: ρ⟩
    | none => .ret u [.err (.badJSON ((json.length : Int) - 1))] := by
  run_go [Src.IterateArray.for1]
  refine (loop_skip_end (json := json) (fun j => ⟨u, (go% err, .nil) :: (go% start, .int j) :: (0, .nil) :: (go% json, .bytes json) :: ρ⟩)
    (.ret u [.err (.badJSON ((json.length : Int) - 1))]) ?_ ?_ ?_ rfl ?_ fuel 0 hl (by omega)).trans ?_
  · intro i
    cases h : json[i]? <;> run_go [h]
  · intro i hi
    have h : ¬ ((json.length : Int) - 2 < i) := by omega
    run_go [Src.IterateArray.body1, h]
    rfl
  · intro i hi
    have h : (json.length : Int) - 2 < (json.length : Int) - 1 := by omega
    have e : (i : Int) = (json.length : Int) - 1 := by omega
    run_go [Src.IterateArray.body1, h, e]
  · intro i; run_go []
  · rfl

theorem tbl_six : ([34, 44, 91, 93, 123, 125] : Bytes).foldl (fun tb c => tb.set c.toNat true) (List.replicate 256 false) = tbl true false := by
  decide +kernel

theorem ia_for2 (u : σ) (ρ : Env) :
    exec (cbCtx fl fuel d cb) fuel Src.IterateArray.for2 ⟨u, (go% isJSONChar, .bools (List.replicate 256 false)) ::
      (go% chars, .bytes [34, 44, 91, 93, 123, 125]) :: ρ⟩ =
    .norm ⟨u, (go% isJSONChar, .bools (tbl true false)) :: (go% chars, .bytes [34, 44, 91, 93, 123, 125]) :: ρ⟩ := by
  run_go [Src.IterateArray.for2]
  refine (range_tbl ?_ [34, 44, 91, 93, 123, 125] _ _ rfl List.length_replicate).trans ?_
  · intro tb c h
    run_go [Src.IterateArray.body2, put_nat tb c.toNat true (by rw [h]; exact c.toNat_lt)]
  · rw [tbl_six]

/-- The variables in the loop of `IterateArray`. -/
abbrev iaSt (json : Bytes) (s : IaSt σ) (ρ : Env) : St σ := ⟨s.user,
  (go% level, .int s.level) :: (go% inQuote, .bool s.inQuote) :: (go% isJSONChar, .bools (tbl true false)) ::
    (go% chars, .bytes [34, 44, 91, 93, 123, 125]) :: (go% err, .nil) :: (go% start, .int s.start) :: (0, .nil) :: (go% json, .bytes json) :: ρ⟩

/-- With the variables of a round. -/
abbrev iaIn (json : Bytes) (c : UInt8) (i : Nat) (s : IaSt σ) (ρ : Env) : St σ :=
  ⟨s.user, (go% curr, .byte c) :: (0, .nil) :: (go% i, .int i) :: (0, .nil) :: (iaSt json s ρ).env⟩

theorem ia_for4 (hf : json.length < fuel) {i : Nat} (hi : i ≤ json.length) (c : UInt8) (s : IaSt σ) (ρ : Env) :
    exec (cbCtx fl fuel d cb) fuel Src.IterateArray.for4 (iaIn json c i s ρ) =
    match quoteScan1 json i i with
    | .real => .jump (go% cont) (iaIn json c i { s with inQuote := !s.inQuote } ρ)
    | _ => .norm (iaIn json c i s ρ) := by
  run_go [Src.IterateArray.for4]
  refine (loop_quote1 (json := json) (i := i) (fun n => ⟨s.user, (go% k, .int n) :: (0, .nil) :: (iaIn json c i s ρ).env⟩)
      (.jump (go% cont) (iaIn json c i { s with inQuote := !s.inQuote } ρ)) (.norm (iaIn json c i s ρ)) (.norm (iaIn json c i s ρ))
      ?_ ?_ ?_ ?_ hi fuel i (Nat.le_refl i) (by omega)).trans ?_
  · intro n; run_go []
  · intro n; run_go []
  · intro n; rfl
  · intro n ch hn hc
    cases h1 : ch == 92 <;> cases h2 : (i - n) % 2 == 0 <;> run_go [Src.IterateArray.body4, hc, h1, mod_sub hn, h2]
  · cases quoteScan1 json i i <;> rfl

theorem cv_cases (b : Bytes) : (∃ a, cleanValue b = .ok a) ∨ cleanValue b = .panic := by
  rw [cleanValue]
  split
  · exact .inl ⟨b, rfl⟩
  · simp only
    generalize (firstNS b 0 (b.length - 1)).getD (b.length - 1) = x
    rcases unquote_slice b x ((lastNS b (x + 1) b.length).getD x) with h | ⟨y, z, h⟩
    · exact .inr h
    · rw [h]; exact slice_cases b y z

theorem ia_for3 (hf : json.length < fuel) (cb : σ → Bytes → Cb σ) (C : σ → List Val → R (σ × List Val)) (P : Nat → σ → Prop)
    (hC : ∀ i u v, i < json.length → P i u → C u [.bytes v] = Cb.vals (cb u v)) (hM : ∀ i u, P i u → P (i + 1) u)
    (hS : ∀ i u v u', P i u → cb u v = .ret u' true none → P (i + 1) u') (s : IaSt σ) (h0 : P s.start s.user) (ρ : Env) :
    exec (cbCtx fl fuel (d + 2) C) fuel Src.IterateArray.for3 (iaSt json s ρ) =
    after (fun s => iaSt json s ρ) iterRes (forUp json.length (iaBody json cb) s.start s) := by
  run_go [Src.IterateArray.for3]
  refine (loop_forUp (hi := json.length) (b := iaBody json cb) (fun i (s : IaSt σ) => ⟨s.user, (go% i, .int i) :: (0, .nil) :: (iaSt json s ρ).env⟩) iterRes
      (fun i s => P i s.user) (fun _ => True) ?_ ?_ iterRes_ends (fun _ _ _ => trivial) ?_ fuel s.start s h0 (by omega)).leave _ ?_ iterRes_ends
  · intro i s; run_go []
  · intro i s; run_go []; rfl
  · intro i s hi hP
    obtain ⟨c, hc⟩ := getElem?_of_lt hi
    have e := ia_for4 (fl := fl) (d := d + 2) (cb := C) hf (Nat.le_of_lt hi) c s ρ
    obtain ⟨st, q, lv, u⟩ := s
    have hP' : P (i + 1) u := hM _ _ hP
    have hc' : ∀ v, C u [.bytes v] = Cb.vals (cb u v) := fun v => hC i u v hi hP
    cases h1 : isJSONChar true false c
    · run_go [iaBody, Src.IterateArray.body3, hc, h1, hP', Sim]
    cases h2 : c == 34
    rotate_left
    · cases q
      · run_go [iaBody, Src.IterateArray.body3, hc, h1, h2, hP', Sim]
      · cases h3 : quoteScan1 json i i <;> rw [h3] at e <;> run_go [iaBody, Src.IterateArray.body3, hc, h1, h2, h3, e, hP', Sim]
    cases q
    rotate_left
    · run_go [iaBody, Src.IterateArray.body3, hc, h1, h2, hP', Sim]
    rcases indByte c with h | h | h | h | h | h | h <;> obtain ⟨h3, h4, h5, h6, h7, h8⟩ := h
    · run_go [iaBody, Src.IterateArray.body3, hc, h1, h2, h3, h4, h5, h6, h7, h8, hP', Sim]
    · by_cases h9 : lv < 0
      · run_go [iaBody, Src.IterateArray.body3, hc, h1, h2, h3, h4, h5, h6, h7, h8, h9, hP', Sim, iterRes]
      cases h10 : lv == 0
      · run_go [iaBody, Src.IterateArray.body3, hc, h1, h2, h3, h4, h5, h6, h7, h8, h9, h10, hP', Sim]
      rcases slice_cases json st i with ⟨b, h11⟩ | h11
      rotate_left
      · run_go [iaBody, Src.IterateArray.body3, hc, h1, h2, h3, h4, h5, h6, h7, h8, h9, h10, h11, hP', Sim, iterRes]
      have hb : b.length < fuel := Nat.lt_of_le_of_lt (slice_length h11) hf
      rcases cv_cases b with ⟨v, h12⟩ | h12
      · rcases h13 : cb u v with ⟨u', k, _ | e⟩ | _ <;>
          run_go [iaBody, Src.IterateArray.body3, hc, h1, h2, h3, h4, h5, h6, h7, h8, h9, h10, h11, run_cleanValue b hb, h12, h13, hc', hP', Sim, iterRes]
      · run_go [iaBody, Src.IterateArray.body3, hc, h1, h2, h3, h4, h5, h6, h7, h8, h9, h10, h11, run_cleanValue b hb, h12, hP', Sim, iterRes]
    · run_go [iaBody, Src.IterateArray.body3, hc, h1, h2, h3, h4, h5, h6, h7, h8, hP', Sim]
    · by_cases h9 : lv < 0
      · run_go [iaBody, Src.IterateArray.body3, hc, h1, h2, h3, h4, h5, h6, h7, h8, h9, hP', Sim, iterRes]
      · run_go [iaBody, Src.IterateArray.body3, hc, h1, h2, h3, h4, h5, h6, h7, h8, h9, hP', Sim, iterRes]
    · cases h10 : lv == 0
      · run_go [iaBody, Src.IterateArray.body3, hc, h1, h2, h3, h4, h5, h6, h7, h8, h10, hP', Sim]
      rcases slice_cases json st i with ⟨b, h11⟩ | h11
      rotate_left
      · run_go [iaBody, Src.IterateArray.body3, hc, h1, h2, h3, h4, h5, h6, h7, h8, h10, h11, hP', Sim, iterRes]
      have hb : b.length < fuel := Nat.lt_of_le_of_lt (slice_length h11) hf
      rcases cv_cases b with ⟨v, h12⟩ | h12
      · rcases h13 : cb u v with ⟨u', _ | _, _ | e⟩ | _ <;>
          run_go [iaBody, Src.IterateArray.body3, hc, h1, h2, h3, h4, h5, h6, h7, h8, h10, h11, run_cleanValue b hb, h12, h13, hc', hP', Sim, iterRes, Int.natCast_succ]
        exact hS _ _ _ _ hP h13
      · run_go [iaBody, Src.IterateArray.body3, hc, h1, h2, h3, h4, h5, h6, h7, h8, h10, h11, run_cleanValue b hb, h12, hP', Sim, iterRes]
    · cases h10 : lv == 0 <;> run_go [iaBody, Src.IterateArray.body3, hc, h1, h2, h3, h4, h5, h6, h7, h8, h10, hP', Sim]
    · cases h10 : lv == 0 <;> run_go [iaBody, Src.IterateArray.body3, hc, h1, h2, h3, h4, h5, h6, h7, h8, h10, hP', Sim]
  · intro i s; rfl

theorem run_IterateArrayC (hf : need json path < fuel) (cb : σ → Bytes → Cb σ) (C : σ → List Val → R (σ × List Val)) (P : Nat → σ → Prop)
    (hC : ∀ i u v, i < json.length → P i u → C u [.bytes v] = Cb.vals (cb u v)) (hM : ∀ i u, P i u → P (i + 1) u)
    (hS : ∀ i u v u', P i u → cb u v = .ret u' true none → P (i + 1) u') (u : σ) (h0 : ∀ i, P i u) :
    Src.IterateArray.run (cbCtx fl fuel (d + 3) C) fuel true [.bytes json, .nil, .strs path] u = iterVal (IterateArray json cb path u) := by
  refine iter_body rfl ?_
  have hf' : json.length < fuel := by unfold need at hf; omega
  have ha : bArr = [91, 93] := rfl
  by_cases g0 : json.length = 0
  · run_go [Src.IterateArray, IterateArray, g0, iterRes, show (0 : Nat) < 2 by omega]
  by_cases g1 : json.length = 1
  · run_go [Src.IterateArray, IterateArray, g1, iterRes, show (1 : Nat) < 2 by omega]
  by_cases g2 : json.length = 2
  · have g3 : ¬ json.length < 2 := by omega
    have g0' : ((json.length : Int) == 0) = false := beq_eq_false_iff_ne.2 (by omega)
    have g1' : ((json.length : Int) == 1) = false := beq_eq_false_iff_ne.2 (by omega)
    have g2' : ((json.length : Int) == 2) = true := beq_iff_eq.2 (by omega)
    have g2'' : (json.length == 2) = true := beq_iff_eq.2 g2
    cases h1 : json == [91, 93] <;> run_go [Src.IterateArray, IterateArray, g0', g1', g2', g2'', g3, ha, h1, iterRes]
  have g3 : ¬ json.length < 2 := by omega
  have g0' : ((json.length : Int) == 0) = false := beq_eq_false_iff_ne.2 (by omega)
  have g1' : ((json.length : Int) == 1) = false := beq_eq_false_iff_ne.2 (by omega)
  have g2' : ((json.length : Int) == 2) = false := beq_eq_false_iff_ne.2 (by omega)
  have g2'' : (json.length == 2) = false := beq_eq_false_iff_ne.2 (by omega)
  have e3 := fun start => ia_for3 (fl := fl) (d := d + 1) hf' cb C P hC hM hS ⟨start, false, 0, u⟩ (h0 _) [(go% callback, .nil), (go% path, .strs path)]
  simp only [iaSt] at e3
  cases hp : path.length == 0
  · cases h : core json true path with
    | err e => run_go [Src.IterateArray, IterateArray, g0', g1', g2', g2'', g3, hp, run_core hf, h, locVals, Out.map, iterRes]
    | panic => run_go [Src.IterateArray, IterateArray, g0', g1', g2', g2'', g3, hp, run_core hf, h, locVals, Out.map, iterRes]
    | ok l =>
      cases h2 : json[l.start]? with
      | none => run_go [Src.IterateArray, IterateArray, g0', g1', g2', g2'', g3, hp, run_core hf, h, locVals, Out.map, iterRes, ia_for2, h2]
      | some c =>
        cases h3 : c == 91
        · run_go [Src.IterateArray, IterateArray, g0', g1', g2', g2'', g3, hp, run_core hf, h, locVals, Out.map, iterRes, ia_for2, h2, h3]
        have e3 := e3 (l.start + 1)
        rw [Int.natCast_succ] at e3
        rcases h4 : forUp json.length (iaBody json cb) (l.start + 1) ⟨l.start + 1, false, 0, u⟩ with s | ⟨u', _ | x⟩ | _ <;> rw [h4] at e3 <;>
          run_go [Src.IterateArray, IterateArray, g0', g1', g2', g2'', g3, hp, run_core hf, h, locVals, Out.map, iterRes, ia_for2, h2, h3, Int.natCast_succ, e3, after, h4]
  · have e1 := ia_for1 (fl := fl) (d := d + 2) (cb := C) hf' (by omega) u [(go% callback, .nil), (go% path, .strs path)]
    cases h2 : skipSpaces json 0 with
    | none => rw [h2] at e1; run_go [Src.IterateArray, IterateArray, g0', g1', g2', g2'', g3, hp, e1, h2, Out.map, iterRes]
    | some a =>
      rw [h2] at e1
      obtain ⟨c, hc, -⟩ := skipSpaces_some h2
      cases h3 : c == 91
      · run_go [Src.IterateArray, IterateArray, g0', g1', g2', g2'', g3, hp, e1, h2, Out.map, iterRes, ia_for2, hc, h3]
      have e3 := e3 (a + 1)
      rw [Int.natCast_succ] at e3
      rcases h4 : forUp json.length (iaBody json cb) (a + 1) ⟨a + 1, false, 0, u⟩ with s | ⟨u', _ | x⟩ | _ <;> rw [h4] at e3 <;>
        run_go [Src.IterateArray, IterateArray, g0', g1', g2', g2'', g3, hp, e1, h2, Out.map, iterRes, ia_for2, hc, h3, Int.natCast_succ, e3, after, h4]

/-! ### IterateKeyValue -/

theorem run_IterateArray (hf : need json path < fuel) (cb : σ → Bytes → Cb σ) (u : σ) :
    Src.IterateArray.run (cbCtx fl fuel (d + 3) (cb1 cb)) fuel true [.bytes json, .nil, .strs path] u = iterVal (IterateArray json cb path u) :=
  run_IterateArrayC hf cb (cb1 cb) (fun _ _ => True) (fun _ _ _ _ _ => rfl) (fun _ _ _ => trivial) (fun _ _ _ _ _ _ => trivial) u fun _ => trivial

theorem ik_for1 (hf : json.length < fuel) (u : σ) (ρ : Env) :
    exec (cbCtx fl fuel (d + 1) cb) fuel Src.IterateKeyValue.for1 ⟨u, (go% «end», .int 0) :: (go% err, .nil) :: (go% start, .int 0) :: (0, .nil) :: (go% json, .bytes json) :: ρ⟩ =
    match skipSpaces json 0 with
    | some j => .norm ⟨u, (go% «end», .int 0) :: (go% err, .nil) :: (go% start, .int j) :: (0, .nil) :: (go% json, .bytes json) :: ρ⟩
    | none => .panic := by
  run_go [Src.IterateKeyValue.for1]
  refine (loop_skip (json := json) (fun j => ⟨u, (go% «end», .int 0) :: (go% err, .nil) :: (go% start, .int j) :: (0, .nil) :: (go% json, .bytes json) :: ρ⟩)
    ?_ ?_ ?_ fuel 0 (by omega)).trans ?_
  · intro i
    cases h : json[i]? <;> run_go [h]
  · intro i hi
    have h : ¬ ((json.length : Int) - 1 < i) := by omega
    run_go [Src.IterateKeyValue.body1, h]
    rfl
  · intro i; run_go []
  · rfl

theorem ik_for2 (u : σ) (ρ : Env) :
    exec (cbCtx fl fuel d cb) fuel Src.IterateKeyValue.for2 ⟨u, (go% isJSONChar, .bools (List.replicate 256 false)) ::
      (go% chars, .bytes [34, 44, 58, 91, 93, 123, 125]) :: ρ⟩ =
    .norm ⟨u, (go% isJSONChar, .bools (tbl true true)) :: (go% chars, .bytes [34, 44, 58, 91, 93, 123, 125]) :: ρ⟩ := by
  run_go [Src.IterateKeyValue.for2]
  refine (range_tbl ?_ [34, 44, 58, 91, 93, 123, 125] _ _ rfl List.length_replicate).trans ?_
  · intro tb c h
    run_go [Src.IterateKeyValue.body2, put_nat tb c.toNat true (by rw [h]; exact c.toNat_lt)]
  · rw [tbl_seven]

/-- `key` is nil until it is first assigned. -/
def ikKey (k : Bytes) : Bool → Val
  | true => .bytes k
  | false => .nil

/-- The variables in the loop of `IterateKeyValue`. -/
abbrev ikSt (json : Bytes) (s : IkSt σ × Bool) (ρ : Env) : St σ := ⟨s.1.user,
  (go% key, ikKey s.1.key s.2) :: (go% level, .int s.1.level) :: (go% inQuote, .bool s.1.inQuote) :: (go% keyEnd, .int s.1.keyEnd) ::
    (go% keyStart, .int s.1.keyStart) :: (0, .nil) :: (go% isJSONChar, .bools (tbl true true)) ::
    (go% chars, .bytes [34, 44, 58, 91, 93, 123, 125]) :: (go% «end», .int s.1.stop) :: (go% err, .nil) :: (go% start, .int s.1.start) ::
    (0, .nil) :: (go% json, .bytes json) :: ρ⟩

/-- With the variables of a round. -/
abbrev ikIn (json : Bytes) (c : UInt8) (i : Nat) (s : IkSt σ × Bool) (ρ : Env) : St σ :=
  ⟨s.1.user, (go% curr, .byte c) :: (0, .nil) :: (go% i, .int i) :: (0, .nil) :: (ikSt json s ρ).env⟩

theorem ik_for4 (hf : json.length < fuel) {i : Nat} (hi : i ≤ json.length) (c : UInt8) (s : IkSt σ × Bool) (ρ : Env) :
    exec (cbCtx fl fuel d cb) fuel Src.IterateKeyValue.for4 (ikIn json c i s ρ) =
    match quoteScan json i i with
    | .real => .norm (ikIn json c i ({ s.1 with inQuote := !s.1.inQuote }, s.2) ρ)
    | .escaped => .jump (go% cont) (ikIn json c i s ρ)
    | .off => .norm (ikIn json c i s ρ) := by
  run_go [Src.IterateKeyValue.for4]
  refine (loop_quote (json := json) (i := i) (fun n => ⟨s.1.user, (go% n, .int n) :: (0, .nil) :: (ikIn json c i s ρ).env⟩)
      (.norm (ikIn json c i ({ s.1 with inQuote := !s.1.inQuote }, s.2) ρ)) (.jump (go% cont) (ikIn json c i s ρ)) (.norm (ikIn json c i s ρ))
      ?_ ?_ ?_ ?_ hi fuel i (Nat.le_refl i) (by omega)).trans ?_
  · intro n; run_go []
  · intro n; run_go []
  · intro n; rfl
  · intro n ch hn hc
    cases h1 : ch == 92 <;> cases h2 : (i - n) % 2 == 0 <;> run_go [Src.IterateKeyValue.body4, hc, h1, mod_sub hn, h2]
  · cases quoteScan json i i <;> rfl

theorem ik_for5 (hf : json.length < fuel) {i : Nat} (hi : i ≤ json.length) (u : σ) (e : Int) (kv kl kq ke ks : Val) (st : Nat) (ρ : Env) (c : Val) :
    exec (cbCtx fl fuel (d + 1) cb) fuel Src.IterateKeyValue.for5 ⟨u, (go% curr, c) :: (0, .nil) :: (go% i, .int i) :: (0, .nil) ::
      (go% key, kv) :: (go% level, kl) :: (go% inQuote, kq) :: (go% keyEnd, ke) :: (go% keyStart, ks) :: (0, .nil) :: (go% isJSONChar, .bools (tbl true true)) ::
      (go% chars, .bytes [34, 44, 58, 91, 93, 123, 125]) :: (go% «end», .int e) :: (go% err, .nil) :: (go% start, .int st) ::
      (0, .nil) :: (go% json, .bytes json) :: ρ⟩ =
    .norm ⟨u, (go% curr, c) :: (0, .nil) :: (go% i, .int i) :: (0, .nil) ::
      (go% key, kv) :: (go% level, kl) :: (go% inQuote, kq) :: (go% keyEnd, ke) :: (go% keyStart, ks) :: (0, .nil) :: (go% isJSONChar, .bools (tbl true true)) ::
      (go% chars, .bytes [34, 44, 58, 91, 93, 123, 125]) :: (go% «end», .int e) :: (go% err, .nil) :: (go% start, .int ((firstNS json st i).getD st : Nat)) ::
      (0, .nil) :: (go% json, .bytes json) :: ρ⟩ := by
  run_go [Src.IterateKeyValue.for5]
  refine (loop_first (json := json) (hi := i) (fun j : Nat => (⟨u, (go% j, .int j) :: (0, .nil) :: (go% curr, c) :: (0, .nil) :: (go% i, .int i) :: (0, .nil) ::
      (go% key, kv) :: (go% level, kl) :: (go% inQuote, kq) :: (go% keyEnd, ke) :: (go% keyStart, ks) :: (0, .nil) :: (go% isJSONChar, .bools (tbl true true)) ::
      (go% chars, .bytes [34, 44, 58, 91, 93, 123, 125]) :: (go% «end», .int e) :: (go% err, .nil) :: (go% start, .int st) ::
      (0, .nil) :: (go% json, .bytes json) :: ρ⟩ : St σ))
      (fun j => .norm ⟨u, (go% curr, c) :: (0, .nil) :: (go% i, .int i) :: (0, .nil) ::
      (go% key, kv) :: (go% level, kl) :: (go% inQuote, kq) :: (go% keyEnd, ke) :: (go% keyStart, ks) :: (0, .nil) :: (go% isJSONChar, .bools (tbl true true)) ::
      (go% chars, .bytes [34, 44, 58, 91, 93, 123, 125]) :: (go% «end», .int e) :: (go% err, .nil) :: (go% start, .int j) ::
      (0, .nil) :: (go% json, .bytes json) :: ρ⟩)
      ?_ hi ?_ ?_ fuel st (by omega)).trans ?_
  · intro j
    run_go []
  · intro j ch _ hc hs
    refine ⟨_, by run_go [Src.IterateKeyValue.body5, hc, hs]; rfl, by run_go []; rfl⟩
  · intro j ch _ hc hs
    run_go [Src.IterateKeyValue.body5, hc, hs]
  · cases h : firstNS json st i <;> rfl

theorem ik_for6 (hf : json.length < fuel) {i : Nat} (hi : i ≤ json.length) (u : σ) (e : Nat) (kv kl kq ke ks : Val) (st : Nat) (ρ : Env) (c : Val) :
    exec (cbCtx fl fuel (d + 1) cb) fuel Src.IterateKeyValue.for6 ⟨u, (go% curr, c) :: (0, .nil) :: (go% i, .int i) :: (0, .nil) ::
      (go% key, kv) :: (go% level, kl) :: (go% inQuote, kq) :: (go% keyEnd, ke) :: (go% keyStart, ks) :: (0, .nil) :: (go% isJSONChar, .bools (tbl true true)) ::
      (go% chars, .bytes [34, 44, 58, 91, 93, 123, 125]) :: (go% «end», .int e) :: (go% err, .nil) :: (go% start, .int st) ::
      (0, .nil) :: (go% json, .bytes json) :: ρ⟩ =
    .norm ⟨u, (go% curr, c) :: (0, .nil) :: (go% i, .int i) :: (0, .nil) ::
      (go% key, kv) :: (go% level, kl) :: (go% inQuote, kq) :: (go% keyEnd, ke) :: (go% keyStart, ks) :: (0, .nil) :: (go% isJSONChar, .bools (tbl true true)) ::
      (go% chars, .bytes [34, 44, 58, 91, 93, 123, 125]) :: (go% «end», .int ((lastNS json st i).getD e : Nat)) :: (go% err, .nil) :: (go% start, .int st) ::
      (0, .nil) :: (go% json, .bytes json) :: ρ⟩ := by
  run_go [Src.IterateKeyValue.for6]
  refine (loop_last (json := json) (lo := st) (fun j : Int => (⟨u, (go% j, .int j) :: (0, .nil) :: (go% curr, c) :: (0, .nil) :: (go% i, .int i) :: (0, .nil) ::
      (go% key, kv) :: (go% level, kl) :: (go% inQuote, kq) :: (go% keyEnd, ke) :: (go% keyStart, ks) :: (0, .nil) :: (go% isJSONChar, .bools (tbl true true)) ::
      (go% chars, .bytes [34, 44, 58, 91, 93, 123, 125]) :: (go% «end», .int e) :: (go% err, .nil) :: (go% start, .int st) ::
      (0, .nil) :: (go% json, .bytes json) :: ρ⟩ : St σ))
      (fun j => .norm ⟨u, (go% curr, c) :: (0, .nil) :: (go% i, .int i) :: (0, .nil) ::
      (go% key, kv) :: (go% level, kl) :: (go% inQuote, kq) :: (go% keyEnd, ke) :: (go% keyStart, ks) :: (0, .nil) :: (go% isJSONChar, .bools (tbl true true)) ::
      (go% chars, .bytes [34, 44, 58, 91, 93, 123, 125]) :: (go% «end», .int j) :: (go% err, .nil) :: (go% start, .int st) ::
      (0, .nil) :: (go% json, .bytes json) :: ρ⟩)
      ?_ ?_ ?_ fuel i hi (by omega)).trans ?_
  · intro j
    have h : ((st : Int) - 1 < j) = ((st : Int) ≤ j) := by simp; omega
    run_go [h]
  · intro j ch hc hs
    refine ⟨_, by run_go [Src.IterateKeyValue.body6, hc, hs]; rfl, by run_go []⟩
  · intro j ch hc hs
    run_go [Src.IterateKeyValue.body6, hc, hs]
  · cases h : lastNS json st i <;> rfl

theorem ik_for7 (hf : json.length < fuel) {i : Nat} (hi : i ≤ json.length) (u : σ) (e : Int) (kv kl kq ke ks : Val) (st : Nat) (ρ : Env) (c : Val) :
    exec (cbCtx fl fuel (d + 1) cb) fuel Src.IterateKeyValue.for7 ⟨u, (go% curr, c) :: (0, .nil) :: (go% i, .int i) :: (0, .nil) ::
      (go% key, kv) :: (go% level, kl) :: (go% inQuote, kq) :: (go% keyEnd, ke) :: (go% keyStart, ks) :: (0, .nil) :: (go% isJSONChar, .bools (tbl true true)) ::
      (go% chars, .bytes [34, 44, 58, 91, 93, 123, 125]) :: (go% «end», .int e) :: (go% err, .nil) :: (go% start, .int st) ::
      (0, .nil) :: (go% json, .bytes json) :: ρ⟩ =
    .norm ⟨u, (go% curr, c) :: (0, .nil) :: (go% i, .int i) :: (0, .nil) ::
      (go% key, kv) :: (go% level, kl) :: (go% inQuote, kq) :: (go% keyEnd, ke) :: (go% keyStart, ks) :: (0, .nil) :: (go% isJSONChar, .bools (tbl true true)) ::
      (go% chars, .bytes [34, 44, 58, 91, 93, 123, 125]) :: (go% «end», .int e) :: (go% err, .nil) :: (go% start, .int ((firstNS json st i).getD st : Nat)) ::
      (0, .nil) :: (go% json, .bytes json) :: ρ⟩ := by
  run_go [Src.IterateKeyValue.for7]
  refine (loop_first (json := json) (hi := i) (fun j : Nat => (⟨u, (go% j, .int j) :: (0, .nil) :: (go% curr, c) :: (0, .nil) :: (go% i, .int i) :: (0, .nil) ::
      (go% key, kv) :: (go% level, kl) :: (go% inQuote, kq) :: (go% keyEnd, ke) :: (go% keyStart, ks) :: (0, .nil) :: (go% isJSONChar, .bools (tbl true true)) ::
      (go% chars, .bytes [34, 44, 58, 91, 93, 123, 125]) :: (go% «end», .int e) :: (go% err, .nil) :: (go% start, .int st) ::
      (0, .nil) :: (go% json, .bytes json) :: ρ⟩ : St σ))
      (fun j => .norm ⟨u, (go% curr, c) :: (0, .nil) :: (go% i, .int i) :: (0, .nil) ::
      (go% key, kv) :: (go% level, kl) :: (go% inQuote, kq) :: (go% keyEnd, ke) :: (go% keyStart, ks) :: (0, .nil) :: (go% isJSONChar, .bools (tbl true true)) ::
      (go% chars, .bytes [34, 44, 58, 91, 93, 123, 125]) :: (go% «end», .int e) :: (go% err, .nil) :: (go% start, .int j) ::
      (0, .nil) :: (go% json, .bytes json) :: ρ⟩)
      ?_ hi ?_ ?_ fuel st (by omega)).trans ?_
  · intro j
    run_go []
  · intro j ch _ hc hs
    refine ⟨_, by run_go [Src.IterateKeyValue.body7, hc, hs]; rfl, by run_go []; rfl⟩
  · intro j ch _ hc hs
    run_go [Src.IterateKeyValue.body7, hc, hs]
  · cases h : firstNS json st i <;> rfl

theorem ik_for8 (hf : json.length < fuel) {i : Nat} (hi : i ≤ json.length) (u : σ) (e : Nat) (kv kl kq ke ks : Val) (st : Nat) (ρ : Env) (c : Val) :
    exec (cbCtx fl fuel (d + 1) cb) fuel Src.IterateKeyValue.for8 ⟨u, (go% curr, c) :: (0, .nil) :: (go% i, .int i) :: (0, .nil) ::
      (go% key, kv) :: (go% level, kl) :: (go% inQuote, kq) :: (go% keyEnd, ke) :: (go% keyStart, ks) :: (0, .nil) :: (go% isJSONChar, .bools (tbl true true)) ::
      (go% chars, .bytes [34, 44, 58, 91, 93, 123, 125]) :: (go% «end», .int e) :: (go% err, .nil) :: (go% start, .int st) ::
      (0, .nil) :: (go% json, .bytes json) :: ρ⟩ =
    .norm ⟨u, (go% curr, c) :: (0, .nil) :: (go% i, .int i) :: (0, .nil) ::
      (go% key, kv) :: (go% level, kl) :: (go% inQuote, kq) :: (go% keyEnd, ke) :: (go% keyStart, ks) :: (0, .nil) :: (go% isJSONChar, .bools (tbl true true)) ::
      (go% chars, .bytes [34, 44, 58, 91, 93, 123, 125]) :: (go% «end», .int ((lastNS json (st + 1) i).getD e : Nat)) :: (go% err, .nil) :: (go% start, .int st) ::
      (0, .nil) :: (go% json, .bytes json) :: ρ⟩ := by
  run_go [Src.IterateKeyValue.for8]
  refine (loop_last (json := json) (lo := (st + 1)) (fun j : Int => (⟨u, (go% j, .int j) :: (0, .nil) :: (go% curr, c) :: (0, .nil) :: (go% i, .int i) :: (0, .nil) ::
      (go% key, kv) :: (go% level, kl) :: (go% inQuote, kq) :: (go% keyEnd, ke) :: (go% keyStart, ks) :: (0, .nil) :: (go% isJSONChar, .bools (tbl true true)) ::
      (go% chars, .bytes [34, 44, 58, 91, 93, 123, 125]) :: (go% «end», .int e) :: (go% err, .nil) :: (go% start, .int st) ::
      (0, .nil) :: (go% json, .bytes json) :: ρ⟩ : St σ))
      (fun j => .norm ⟨u, (go% curr, c) :: (0, .nil) :: (go% i, .int i) :: (0, .nil) ::
      (go% key, kv) :: (go% level, kl) :: (go% inQuote, kq) :: (go% keyEnd, ke) :: (go% keyStart, ks) :: (0, .nil) :: (go% isJSONChar, .bools (tbl true true)) ::
      (go% chars, .bytes [34, 44, 58, 91, 93, 123, 125]) :: (go% «end», .int j) :: (go% err, .nil) :: (go% start, .int st) ::
      (0, .nil) :: (go% json, .bytes json) :: ρ⟩)
      ?_ ?_ ?_ fuel i hi (by omega)).trans ?_
  · intro j
    have h : ((st : Int) < j) = (((st + 1 : Nat) : Int) ≤ j) := by simp; omega
    run_go [h]
  · intro j ch hc hs
    refine ⟨_, by run_go [Src.IterateKeyValue.body8, hc, hs]; rfl, by run_go []⟩
  · intro j ch hc hs
    run_go [Src.IterateKeyValue.body8, hc, hs]
  · cases h : lastNS json (st + 1) i <;> rfl

/-- A round, with a mark whether `key` was assigned. -/
def Ctl.map {α β ρ : Type} (f : α → β) : Ctl α ρ → Ctl β ρ
  | .next s => .next (f s)
  | .goto j s => .goto j (f s)
  | .brk s => .brk (f s)
  | .ret r => .ret r

theorem forUp_mark {α β ρ : Type} {hi : Nat} {b : Nat → α → Ctl α ρ} {b' : Nat → α × β → Ctl (α × β) ρ} (g : Nat → α → β → β)
    (h : ∀ i s f, b' i (s, f) = Ctl.map (·, g i s f) (b i s)) (i : Nat) (s : α) (f : β) :
    match forUp hi b i s with
    | .done t => ∃ f', forUp hi b' i (s, f) = .done (t, f')
    | .ret r => forUp hi b' i (s, f) = .ret r := by
  fun_induction forUp hi b i s generalizing f with
  | case1 i s hlt s' hb ih =>
    have e : forUp hi b' i (s, f) = forUp hi b' (i + 1) (s', g i s f) := by rw [forUp.eq_1 hi b' i, if_pos hlt, h, hb]; rfl
    rw [e]; exact ih _
  | case2 i s hlt j s' hb ih =>
    have e : forUp hi b' i (s, f) = forUp hi b' (max i j + 1) (s', g i s f) := by rw [forUp.eq_1 hi b' i, if_pos hlt, h, hb]; rfl
    rw [e]; exact ih _
  | case3 i s hlt s' hb => exact ⟨g i s f, by rw [forUp, if_pos hlt, h, hb]; rfl⟩
  | case4 i s hlt r hb => show forUp hi b' i (s, f) = _; rw [forUp, if_pos hlt, h, hb]; rfl
  | case5 i s hlt => exact ⟨f, by rw [forUp, if_neg hlt]⟩

def ikMore (json : Bytes) (cb : σ → Bytes → Bytes → Cb σ) (i : Nat) (s : IkSt σ × Bool) : Ctl (IkSt σ × Bool) (IterRes σ) :=
  Ctl.map (·, s.2 || (json[i]? == some 58 && !s.1.inQuote && s.1.level == 1)) (ikBody json cb i s.1)

set_option linter.unusedSimpArgs false in
theorem ik_for3 (hf : json.length < fuel) (cb : σ → Bytes → Bytes → Cb σ) (C : σ → List Val → R (σ × List Val))
    (hN : ∀ u v, C u [.nil, .bytes v] = Cb.vals (cb u [] v))
    (hC : ∀ u k v, k.length ≤ json.length → C u [.bytes k, .bytes v] = Cb.vals (cb u k v))
    (s : IkSt σ × Bool) (h0 : s.1.start = 0 → s.1.level = 0) (hk : s.2 = false → s.1.key = []) (hl : s.1.key.length ≤ json.length) (ρ : Env) :
    exec (cbCtx fl fuel (d + 2) C) fuel Src.IterateKeyValue.for3 (ikSt json s ρ) =
    after (fun s => ikSt json s ρ) iterRes (forUp json.length (ikMore json cb) s.1.start s) := by
  run_go [Src.IterateKeyValue.for3]
  refine (loop_forUp (hi := json.length) (b := ikMore json cb) (fun i (s : IkSt σ × Bool) => ⟨s.1.user, (go% i, .int i) :: (0, .nil) :: (ikSt json s ρ).env⟩) iterRes
      (fun i s => (i = 0 → s.1.level = 0) ∧ (s.2 = false → s.1.key = []) ∧ s.1.key.length ≤ json.length) (fun _ => True) ?_ ?_ iterRes_ends (fun _ _ _ => trivial) ?_ fuel s.1.start s ⟨h0, hk, hl⟩ (by omega)).leave _ ?_ iterRes_ends
  · intro i s; run_go []
  · intro i s; run_go []; rfl
  · rintro i ⟨s, f⟩ hi ⟨h0, hk, hl⟩
    obtain ⟨c, hc⟩ := getElem?_of_lt hi
    have e := ik_for4 (fl := fl) (d := d + 2) (cb := C) hf (Nat.le_of_lt hi) c (s, f) ρ
    obtain ⟨st, en, ks, ke, q, lv, kk, u⟩ := s
    simp only at h0 hk hl
    have hz : ∀ i : Nat, (i + 1 = 0) = False := fun i => by simp
    have hm : (some c == some 58) = (c == 58) := rfl
    have hcb : ∀ v, C u [ikKey kk f, .bytes v] = Cb.vals (cb u kk v) := by
      intro v
      cases f with
      | false => rw [hk rfl]; exact hN u v
      | true => exact hC u kk v hl
    have hf2 : f = true ∧ True ∨ f = false ∧ kk = [] := by
      cases f with
      | false => exact .inr ⟨rfl, hk rfl⟩
      | true => exact .inl ⟨rfl, trivial⟩
    clear hk
    rcases hf2 with ⟨rfl, hkk⟩ | ⟨rfl, hkk⟩ <;> simp only [ikKey] at hcb
    all_goals (
      cases h1 : isJSONChar true true c
      · have h58 : (c == 58) = false := by
          cases h : c == 58 with
          | false => rfl
          | true => rw [beq_iff_eq] at h; subst h; cases h1
        run_go [ikMore, ikBody, Src.IterateKeyValue.body3, Ctl.map, hz, hm, ikKey, hc, h1,  h58, Sim] <;> simp [hkk, hl]
      cases h2 : c == 34
      rotate_left
      · have h58 : (c == 58) = false := by rw [beq_iff_eq] at h2; subst h2; rfl
        cases q
        · run_go [ikMore, ikBody, Src.IterateKeyValue.body3, Ctl.map, hz, hm, ikKey, hc, h1, h2, h58, ikQuote, Sim] <;> simp [hkk, hl]
        · cases h3 : quoteScan json i i <;> rw [h3] at e <;> simp only [ikIn, ikKey] at e <;> run_go [ikMore, ikBody, Src.IterateKeyValue.body3, Ctl.map, hz, hm, ikKey, hc, h1, h2, h58, h3, ikQuote, e, Sim] <;> simp [hkk, hl]
      cases q
      rotate_left
      · run_go [ikMore, ikBody, Src.IterateKeyValue.body3, Ctl.map, hz, hm, ikKey, hc, h1, h2, Sim] <;> simp [hkk, hl]
      rcases indByte c with h | h | h | h | h | h | h <;> obtain ⟨h3, h4, h5, h6, h7, h8⟩ := h
      · run_go [ikMore, ikBody, Src.IterateKeyValue.body3, Ctl.map, hz, hm, ikKey, hc, h1, h2, h3, h4, h5, h6, h7, h8, Sim] <;> simp [hkk, hl]
      · cases hlv : lv == 1 <;> run_go [ikMore, ikBody, Src.IterateKeyValue.body3, Ctl.map, hz, hm, ikKey, hc, h1, h2, h3, h4, h5, h6, h7, h8, hlv, Sim, iterRes] <;> simp [hkk, hl]
      · run_go [ikMore, ikBody, Src.IterateKeyValue.body3, Ctl.map, hz, hm, ikKey, hc, h1, h2, h3, h4, h5, h6, h7, h8, Sim] <;> simp [hkk, hl]
      · cases hlv : lv == 1
        · run_go [ikMore, ikBody, Src.IterateKeyValue.body3, Ctl.map, hz, hm, ikKey, hc, h1, h2, h3, h4, h5, h6, h7, h8, hlv, Sim, iterRes] <;> simp [hkk, hl]
        have e5 := fun kv => ik_for5 (fl := fl) (d := d + 1) (cb := C) hf (Nat.le_of_lt hi) u en kv (.int lv) (.bool false) (.int ke) (.int ks) st ρ (.byte c)
        have e6 := fun kv => ik_for6 (fl := fl) (d := d + 1) (cb := C) hf (Nat.le_of_lt hi) u en kv (.int lv) (.bool false) (.int ke) (.int ks) ((firstNS json st i).getD st) ρ (.byte c)
        generalize ha : (firstNS json st i).getD st = a at e5 e6
        generalize hz' : (lastNS json a i).getD en = z at e6
        cases h10 : json[a]? with
        | none => run_go [ikMore, ikBody, Src.IterateKeyValue.body3, Ctl.map, hz, hm, ikKey, hc, h1, h2, h3, h4, h5, h6, h7, h8, hlv, e5, e6, ha, hz', ikValue, idx_nat, outOpt, h10, Sim, iterRes]
        | some x =>
          cases h11 : x == 34
          · rcases slice_cases json a ((z : Int) + 1) with ⟨v, h14⟩ | h14
            rotate_left
            · run_go [ikMore, ikBody, Src.IterateKeyValue.body3, Ctl.map, hz, hm, ikKey, hc, h1, h2, h3, h4, h5, h6, h7, h8, hlv, e5, e6, ha, hz', ikValue, idx_nat, outOpt, h10, h11, h14, Sim, iterRes]
            rcases h13 : cb u kk v with ⟨u', _ | _, _ | x⟩ | _ <;>
              run_go [ikMore, ikBody, Src.IterateKeyValue.body3, Ctl.map, hz, hm, ikKey, hc, h1, h2, h3, h4, h5, h6, h7, h8, hlv, e5, e6, ha, hz', ikValue, idx_nat, outOpt, h10, h11, h14, h13, hcb, Sim, iterRes] <;> simp [hkk, hl]
          cases h12 : json[z]? with
          | none => run_go [ikMore, ikBody, Src.IterateKeyValue.body3, Ctl.map, hz, hm, ikKey, hc, h1, h2, h3, h4, h5, h6, h7, h8, hlv, e5, e6, ha, hz', ikValue, idx_nat, outOpt, h10, h11, h12, Sim, iterRes]
          | some y =>
            cases h15 : y == 34
            · rcases slice_cases json a ((z : Int) + 1) with ⟨v, h14⟩ | h14
              rotate_left
              · run_go [ikMore, ikBody, Src.IterateKeyValue.body3, Ctl.map, hz, hm, ikKey, hc, h1, h2, h3, h4, h5, h6, h7, h8, hlv, e5, e6, ha, hz', ikValue, idx_nat, outOpt, h10, h11, h12, h15, h14, Sim, iterRes]
              rcases h13 : cb u kk v with ⟨u', _ | _, _ | x⟩ | _ <;>
                run_go [ikMore, ikBody, Src.IterateKeyValue.body3, Ctl.map, hz, hm, ikKey, hc, h1, h2, h3, h4, h5, h6, h7, h8, hlv, e5, e6, ha, hz', ikValue, idx_nat, outOpt, h10, h11, h12, h15, h14, h13, hcb, Sim, iterRes] <;> simp [hkk, hl]
            · rcases slice_cases json ((a : Int) + 1) z with ⟨v, h14⟩ | h14
              rotate_left
              · run_go [ikMore, ikBody, Src.IterateKeyValue.body3, Ctl.map, hz, hm, ikKey, hc, h1, h2, h3, h4, h5, h6, h7, h8, hlv, e5, e6, ha, hz', ikValue, idx_nat, outOpt, h10, h11, h12, h15, h14, Sim, iterRes]
              rcases h13 : cb u kk v with ⟨u', _ | _, _ | x⟩ | _ <;>
                run_go [ikMore, ikBody, Src.IterateKeyValue.body3, Ctl.map, hz, hm, ikKey, hc, h1, h2, h3, h4, h5, h6, h7, h8, hlv, e5, e6, ha, hz', ikValue, idx_nat, outOpt, h10, h11, h12, h15, h14, h13, hcb, Sim, iterRes] <;> simp [hkk, hl]
      · cases hlv : lv == 1
        · run_go [ikMore, ikBody, Src.IterateKeyValue.body3, Ctl.map, hz, hm, ikKey, hc, h1, h2, h3, h4, h5, h6, h7, h8, hlv, Sim, iterRes] <;> simp [hkk, hl]
        have hi0 : (i : Int) - 1 = ((i - 1 : Nat) : Int) := by
          have : i ≠ 0 := by rintro rfl; rw [h0 rfl] at hlv; cases hlv
          omega
        have e5 := fun kv => ik_for7 (fl := fl) (d := d + 1) (cb := C) hf (Nat.le_of_lt hi) u ((i - 1 : Nat) : Int) kv (.int lv) (.bool false) (.int ke) (.int ks) st ρ (.byte c)
        have e6 := fun kv => ik_for8 (fl := fl) (d := d + 1) (cb := C) hf (Nat.le_of_lt hi) u (i - 1) kv (.int lv) (.bool false) (.int ke) (.int ks) ((firstNS json st i).getD st) ρ (.byte c)
        generalize ha : (firstNS json st i).getD st = a at e5 e6
        generalize hz' : (lastNS json (a + 1) i).getD (i - 1) = z at e6
        cases h10 : json[a]? with
        | none => run_go [ikMore, ikBody, Src.IterateKeyValue.body3, Ctl.map, hz, hm, ikKey, hc, h1, h2, h3, h4, h5, h6, h7, h8, hlv, hi0, e5, e6, ha, hz', ikValue, idx_nat, outOpt, h10, Sim, iterRes]
        | some x =>
          cases h11 : x == 34
          · rcases slice_cases json a ((z : Int) + 1) with ⟨v, h14⟩ | h14
            rotate_left
            · run_go [ikMore, ikBody, Src.IterateKeyValue.body3, Ctl.map, hz, hm, ikKey, hc, h1, h2, h3, h4, h5, h6, h7, h8, hlv, hi0, e5, e6, ha, hz', ikValue, idx_nat, outOpt, h10, h11, h14, Sim, iterRes]
            rcases h13 : cb u kk v with ⟨u', _ | _, _ | x⟩ | _ <;>
              run_go [ikMore, ikBody, Src.IterateKeyValue.body3, Ctl.map, hz, hm, ikKey, hc, h1, h2, h3, h4, h5, h6, h7, h8, hlv, hi0, e5, e6, ha, hz', ikValue, idx_nat, outOpt, h10, h11, h14, h13, hcb, Sim, iterRes] <;> simp [hkk, hl]
          cases h12 : json[z]? with
          | none => run_go [ikMore, ikBody, Src.IterateKeyValue.body3, Ctl.map, hz, hm, ikKey, hc, h1, h2, h3, h4, h5, h6, h7, h8, hlv, hi0, e5, e6, ha, hz', ikValue, idx_nat, outOpt, h10, h11, h12, Sim, iterRes]
          | some y =>
            cases h15 : y == 34
            · rcases slice_cases json a ((z : Int) + 1) with ⟨v, h14⟩ | h14
              rotate_left
              · run_go [ikMore, ikBody, Src.IterateKeyValue.body3, Ctl.map, hz, hm, ikKey, hc, h1, h2, h3, h4, h5, h6, h7, h8, hlv, hi0, e5, e6, ha, hz', ikValue, idx_nat, outOpt, h10, h11, h12, h15, h14, Sim, iterRes]
              rcases h13 : cb u kk v with ⟨u', _ | _, _ | x⟩ | _ <;>
                run_go [ikMore, ikBody, Src.IterateKeyValue.body3, Ctl.map, hz, hm, ikKey, hc, h1, h2, h3, h4, h5, h6, h7, h8, hlv, hi0, e5, e6, ha, hz', ikValue, idx_nat, outOpt, h10, h11, h12, h15, h14, h13, hcb, Sim, iterRes] <;> simp [hkk, hl]
            · rcases slice_cases json ((a : Int) + 1) z with ⟨v, h14⟩ | h14
              rotate_left
              · run_go [ikMore, ikBody, Src.IterateKeyValue.body3, Ctl.map, hz, hm, ikKey, hc, h1, h2, h3, h4, h5, h6, h7, h8, hlv, hi0, e5, e6, ha, hz', ikValue, idx_nat, outOpt, h10, h11, h12, h15, h14, Sim, iterRes]
              rcases h13 : cb u kk v with ⟨u', _ | _, _ | x⟩ | _ <;>
                run_go [ikMore, ikBody, Src.IterateKeyValue.body3, Ctl.map, hz, hm, ikKey, hc, h1, h2, h3, h4, h5, h6, h7, h8, hlv, hi0, e5, e6, ha, hz', ikValue, idx_nat, outOpt, h10, h11, h12, h15, h14, h13, hcb, Sim, iterRes] <;> simp [hkk, hl]
      · cases hlv : lv == 1
        · run_go [ikMore, ikBody, Src.IterateKeyValue.body3, Ctl.map, hz, hm, ikKey, hc, h1, h2, h3, h4, h5, h6, h7, h8, hlv, Sim, iterRes] <;> simp [hkk, hl]
        rcases slice_cases json ((ks : Int) + 1) ke with ⟨b, h10⟩ | h10 <;>
          run_go [ikMore, ikBody, Src.IterateKeyValue.body3, Ctl.map, hz, hm, ikKey, hc, h1, h2, h3, h4, h5, h6, h7, h8, hlv, h10, Sim, iterRes, Int.natCast_succ] <;> simp [hkk, hl]
        exact slice_length h10
      · cases hlv : lv == 1 <;> run_go [ikMore, ikBody, Src.IterateKeyValue.body3, Ctl.map, hz, hm, ikKey, hc, h1, h2, h3, h4, h5, h6, h7, h8, hlv, Sim] <;> simp [hkk, hl])
  · intro i s; rfl

theorem ik_for3' (hf : json.length < fuel) (cb : σ → Bytes → Bytes → Cb σ) (C : σ → List Val → R (σ × List Val))
    (hN : ∀ u v, C u [.nil, .bytes v] = Cb.vals (cb u [] v))
    (hC : ∀ u k v, k.length ≤ json.length → C u [.bytes k, .bytes v] = Cb.vals (cb u k v)) (st : Nat) (u : σ) (ρ : Env) :
    match forUp json.length (ikBody json cb) st ⟨st, 0, 0, 0, false, 0, [], u⟩ with
    | .done t => ∃ f, exec (cbCtx fl fuel (d + 2) C) fuel Src.IterateKeyValue.for3 (ikSt json (⟨st, 0, 0, 0, false, 0, [], u⟩, false) ρ) =
        .norm (ikSt json (t, f) ρ)
    | .ret r => exec (cbCtx fl fuel (d + 2) C) fuel Src.IterateKeyValue.for3 (ikSt json (⟨st, 0, 0, 0, false, 0, [], u⟩, false) ρ) = iterRes r := by
  have e := ik_for3 (fl := fl) (d := d) hf cb C hN hC (⟨st, 0, 0, 0, false, 0, [], u⟩, false) (fun _ => rfl) (fun _ => rfl) (Nat.zero_le _) ρ
  have h := forUp_mark (hi := json.length) (b := ikBody json cb) (b' := ikMore json cb)
    (fun i s f => f || (json[i]? == some 58 && !s.inQuote && s.level == 1)) (fun i s f => rfl) st ⟨st, 0, 0, 0, false, 0, [], u⟩ false
  cases h1 : forUp json.length (ikBody json cb) st ⟨st, 0, 0, 0, false, 0, [], u⟩ with
  | done t =>
    rw [h1] at h
    obtain ⟨f, h⟩ := h
    exact ⟨f, by rw [e, h]; rfl⟩
  | ret r =>
    rw [h1] at h
    simp only at h ⊢
    rw [e, h]; rfl

theorem run_IterateKeyValueC (hf : need json path < fuel) (cb : σ → Bytes → Bytes → Cb σ) (C : σ → List Val → R (σ × List Val))
    (hN : ∀ u v, C u [.nil, .bytes v] = Cb.vals (cb u [] v))
    (hC : ∀ u k v, k.length ≤ json.length → C u [.bytes k, .bytes v] = Cb.vals (cb u k v)) (u : σ) :
    Src.IterateKeyValue.run (cbCtx fl fuel (d + 3) C) fuel true [.bytes json, .nil, .strs path] u = iterVal (IterateKeyValue json cb path u) := by
  refine iter_body rfl ?_
  have hf' : json.length < fuel := by unfold need at hf; omega
  have ho : bObj = [123, 125] := rfl
  cases g : json == [123, 125]
  rotate_left
  · run_go [Src.IterateKeyValue, IterateKeyValue, ho, g, iterRes]
  have e3 := fun st => ik_for3' (fl := fl) (d := d + 1) hf' cb C hN hC st u [(go% callback, .nil), (go% path, .strs path)]
  simp only [ikSt, ikKey, Int.natCast_zero] at e3
  cases hp : path.length == 0
  · cases h : core json true path with
    | err e => run_go [Src.IterateKeyValue, IterateKeyValue, ho, g, hp, valueStart, run_core hf, h, locVals, Out.map, iterRes]
    | panic => run_go [Src.IterateKeyValue, IterateKeyValue, ho, g, hp, valueStart, run_core hf, h, locVals, Out.map, iterRes]
    | ok l =>
      cases h2 : json[l.start]? with
      | none => run_go [Src.IterateKeyValue, IterateKeyValue, ho, g, hp, valueStart, run_core hf, h, locVals, Out.map, iterRes, ik_for2, h2]
      | some c =>
        cases h3 : c == 123
        · run_go [Src.IterateKeyValue, IterateKeyValue, ho, g, hp, valueStart, run_core hf, h, locVals, Out.map, iterRes, ik_for2, h2, h3]
        have e3 := e3 l.start
        rcases h4 : forUp json.length (ikBody json cb) l.start ⟨l.start, 0, 0, 0, false, 0, [], u⟩ with s | ⟨u', _ | x⟩ | _ <;> rw [h4] at e3
        · obtain ⟨f, e3⟩ := e3
          run_go [Src.IterateKeyValue, IterateKeyValue, ho, g, hp, valueStart, run_core hf, h, locVals, Out.map, iterRes, ik_for2, h2, h3, e3, h4]
        all_goals
          simp only [iterRes] at e3
          run_go [Src.IterateKeyValue, IterateKeyValue, ho, g, hp, valueStart, run_core hf, h, locVals, Out.map, iterRes, ik_for2, h2, h3, e3, h4]
  · have e1 := ik_for1 (fl := fl) (d := d + 2) (cb := C) hf' u [(go% callback, .nil), (go% path, .strs path)]
    cases h2 : skipSpaces json 0 with
    | none => rw [h2] at e1; run_go [Src.IterateKeyValue, IterateKeyValue, ho, g, hp, valueStart, e1, h2, Out.map, iterRes]
    | some a =>
      rw [h2] at e1
      obtain ⟨c, hc, -⟩ := skipSpaces_some h2
      cases h3 : c == 123
      · run_go [Src.IterateKeyValue, IterateKeyValue, ho, g, hp, valueStart, e1, h2, Out.map, iterRes, ik_for2, hc, h3]
      have e3 := e3 a
      rcases h4 : forUp json.length (ikBody json cb) a ⟨a, 0, 0, 0, false, 0, [], u⟩ with s | ⟨u', _ | x⟩ | _ <;> rw [h4] at e3
      · obtain ⟨f, e3⟩ := e3
        run_go [Src.IterateKeyValue, IterateKeyValue, ho, g, hp, valueStart, e1, h2, Out.map, iterRes, ik_for2, hc, h3, e3, h4]
      all_goals
        simp only [iterRes] at e3
        run_go [Src.IterateKeyValue, IterateKeyValue, ho, g, hp, valueStart, e1, h2, Out.map, iterRes, ik_for2, hc, h3, e3, h4]

theorem run_IterateKeyValue (hf : need json path < fuel) (cb : σ → Bytes → Bytes → Cb σ) (u : σ) :
    Src.IterateKeyValue.run (cbCtx fl fuel (d + 3) (cb2 cb)) fuel true [.bytes json, .nil, .strs path] u = iterVal (IterateKeyValue json cb path u) :=
  run_IterateKeyValueC hf cb (cb2 cb) (fun _ _ => rfl) (fun _ _ _ _ => rfl) u

end

end Jin.Go
