import Verif.Go.Core
/-!
# Go.Find — `core` of the text as a whole
-/

namespace Jin.Go

section
variable {fl : FloatLib UInt64} {fuel d : Nat} {json : Bytes} {path : List Bytes} {js : Bool}

@[go_run] theorem nat_eq (a b : Nat) : ((a : Int) == (b : Int)) = (a == b) := by
  rw [Bool.eq_iff_iff]; simp only [beq_iff_eq]; omega

theorem loop_core {W : Type} {c : St W → R Bool} {post body : St W → Res W} (E : CoreSt → St W) (conv : Out Loc → Res W)
    (hconv : ∀ r, (conv r).ends = true)
    (hc : ∀ s, c (E s) = .ok (decide (s.k < path.length)))
    (hp : ∀ s, post (E s) = .norm (E { s with k := s.k + 1 }))
    (hb : ∀ s, s.cur ∈ path → match coreStep json path s with
      | .ret r => body (E s) = conv r
      | .done t => (body (E s)).goes = some (E t) ∧ s.k ≤ t.k ∧ t.cur ∈ path) :
    ∀ n m (s : CoreSt), s.cur ∈ path → path.length - s.k ≤ m → path.length - s.k < n →
      loopN c post body n (E s) = after E conv (coreLoop json path m s) := by
  intro n
  induction n with
  | zero => intro m s _ _ h; omega
  | succ n ih =>
    intro m s hs hm hn
    by_cases hk : s.k < path.length
    · obtain ⟨m, rfl⟩ : ∃ m', m = m' + 1 := ⟨m - 1, by omega⟩
      rw [coreLoop, if_pos hk]
      have hb := hb s hs
      have hct : c (E s) = .ok true := by rw [hc]; simp [hk]
      cases hx : coreStep json path s with
      | ret r =>
        rw [hx] at hb
        rw [loopN_ends hct (by rw [hb]; exact hconv r), hb]
        rfl
      | done t =>
        rw [hx] at hb
        obtain ⟨h1, h2, h3⟩ := hb
        rw [loopN_goes hct h1, hp]
        exact ih m _ h3 (by dsimp only; omega) (by dsimp only; omega)
    · rw [loopN_end (by rw [hc]; simp [hk])]
      cases m with
      | zero => rfl
      | succ m => rw [coreLoop, if_neg hk]; rfl

theorem core_for3 (hf : json.length + path.length + (path.map List.length).sum < fuel) (off : Nat) (br : UInt8) (cur : Bytes)
    (ks : Int) (hcur : cur ∈ path) :
    exec (ctx fl fuel (d + 1)) fuel Src.core.for3 ⟨(), cEnv json js path (tbl true true) off br cur ks⟩ =
    after (fun s : CoreSt => ⟨(), cEnv json js path (tbl true true) s.offset s.brace s.cur s.keyStart⟩) locRes
      (coreLoop json path path.length ⟨0, off, br, cur, ks⟩) := by
  run_go [Src.core.for3]
  have h := loop_core (W := Unit) (json := json) (path := path)
    (c := fun s => (eval (ctx fl fuel (d + 1)) s.env (.bin .lt (.var (go% k)) (.len (.var (go% path))))).bind Val.bool?)
    (post := fun s => exec (ctx fl fuel (d + 1)) fuel (.assign (go% k) (.bin .add (.var (go% k)) (.lit (.int 1)))) s)
    (body := fun s => exec (ctx fl fuel (d + 1)) fuel Src.core.body3 s)
    (oSt json js path) locRes locRes_ends (by intro s; run_go []) (by intro s; run_go []; rfl)
    (fun s hs => core_body3 hf s hs) fuel path.length ⟨0, off, br, cur, ks⟩ hcur (by simp) (by dsimp only; omega)
  refine (congrArg Res.leave h).trans ?_
  cases coreLoop json path path.length ⟨0, off, br, cur, ks⟩ with
  | done s => rfl
  | ret r => exact Res.leave_of_ends (locRes_ends r)

theorem put_nat {α : Type} (l : List α) (i : Nat) (a : α) (h : i < l.length) : put l (i : Int) a = .ok (l.set i a) := by
  simp only [put]
  rw [if_pos ⟨by omega, by omega⟩, Int.toNat_natCast]

theorem core_range1 (off : Int) (cur : Bytes) (l : Bytes) : ∀ (items : List (Val × Val)) (tb : List Bool),
    items.map Prod.snd = l.map Val.byte → tb.length = 256 →
    rangeN 0 (go% v) (fun s => exec (ctx fl fuel (d + 1)) fuel Src.core.body1 s) items
      ⟨(), [(go% isJSONChar, .bools tb),
        (go% chars, .bytes [34, 44, 58, 91, 93, 123, 125]), (go% currentPath, .bytes cur), (go% offset, .int off), (0, .nil),
        (go% json, .bytes json), (go% justStart, .bool js), (go% path, .strs path)]⟩ =
    .norm ⟨(), [(go% isJSONChar, .bools (l.foldl (fun tb c => tb.set c.toNat true) tb)),
        (go% chars, .bytes [34, 44, 58, 91, 93, 123, 125]), (go% currentPath, .bytes cur), (go% offset, .int off), (0, .nil),
        (go% json, .bytes json), (go% justStart, .bool js), (go% path, .strs path)]⟩ := by
  induction l with
  | nil =>
    intro items tb h _
    cases items with
    | nil => rfl
    | cons x xs => simp at h
  | cons c l ih =>
    intro items tb h htb
    cases items with
    | nil => simp at h
    | cons x xs =>
      obtain ⟨i, a⟩ := x
      simp only [List.map_cons, List.cons.injEq] at h
      obtain ⟨rfl, h⟩ := h
      rw [rangeN]
      run_go [Src.core.body1, Env.new, put_nat tb c.toNat true (by rw [htb]; exact c.toNat_lt)]
      exact ih xs _ h (by simpa using htb)

theorem core_for1 (off : Int) (cur : Bytes) :
    exec (ctx fl fuel (d + 1)) fuel Src.core.for1 ⟨(), [(go% isJSONChar, .bools (List.replicate 256 false)),
      (go% chars, .bytes [34, 44, 58, 91, 93, 123, 125]), (go% currentPath, .bytes cur), (go% offset, .int off), (0, .nil),
      (go% json, .bytes json), (go% justStart, .bool js), (go% path, .strs path)]⟩ =
    .norm ⟨(), [(go% isJSONChar, .bools (tbl true true)),
      (go% chars, .bytes [34, 44, 58, 91, 93, 123, 125]), (go% currentPath, .bytes cur), (go% offset, .int off), (0, .nil),
      (go% json, .bytes json), (go% justStart, .bool js), (go% path, .strs path)]⟩ := by
  have ht : [(34 : UInt8), 44, 58, 91, 93, 123, 125].foldl (fun tb c => tb.set c.toNat true) (List.replicate 256 false) =
      tbl true true := by decide +kernel
  run_go [Src.core.for1]
  have h := core_range1 (fl := fl) (fuel := fuel) (d := d) (json := json) (path := path) (js := js) off cur
    [34, 44, 58, 91, 93, 123, 125] ([34, 44, 58, 91, 93, 123, 125].mapIdx fun i c => (.int i, .byte c))
    (List.replicate 256 false) rfl List.length_replicate
  rw [ht] at h
  exact h

theorem core_for2 (hf : json.length < fuel) (off : Nat) (tb : List Bool) (cur : Bytes) :
    exec (ctx fl fuel (d + 1)) fuel Src.core.for2 ⟨(), [(go% isJSONChar, .bools tb),
      (go% chars, .bytes [34, 44, 58, 91, 93, 123, 125]), (go% currentPath, .bytes cur), (go% offset, .int off), (0, .nil),
      (go% json, .bytes json), (go% justStart, .bool js), (go% path, .strs path)]⟩ =
    match skipSpaces json off with
    | some j => .norm ⟨(), [(go% isJSONChar, .bools tb),
      (go% chars, .bytes [34, 44, 58, 91, 93, 123, 125]), (go% currentPath, .bytes cur), (go% offset, .int j), (0, .nil),
      (go% json, .bytes json), (go% justStart, .bool js), (go% path, .strs path)]⟩
    | none => .panic := by
  run_go [Src.core.for2]
  refine (loop_skip (json := json) (fun j => ⟨(), [(go% isJSONChar, .bools tb),
      (go% chars, .bytes [34, 44, 58, 91, 93, 123, 125]), (go% currentPath, .bytes cur), (go% offset, .int j), (0, .nil),
      (go% json, .bytes json), (go% justStart, .bool js), (go% path, .strs path)]⟩) ?_ ?_ ?_ fuel off (by omega)).trans ?_
  · intro i
    cases h : json[i]? <;> run_go [h]
  · intro i hi
    have h : ¬ ((json.length : Int) - 1 < i) := by omega
    run_go [Src.core.body2, h]
    rfl
  · intro i; run_go []
  · rfl

theorem core_for13 (hf : json.length < fuel) (off : Nat) (tb : List Bool) (br : UInt8) (cur : Bytes) (ks : Int) :
    exec (ctx fl fuel (d + 1)) fuel Src.core.for13 ⟨(), cEnv json js path tb off br cur ks⟩ =
    match skipSpaces json off with
    | some j => .norm ⟨(), cEnv json js path tb j br cur ks⟩
    | none => .panic := by
  run_go [Src.core.for13]
  refine (loop_skip (json := json) (fun j => ⟨(), cEnv json js path tb j br cur ks⟩)
    ?_ ?_ ?_ fuel off (by omega)).trans ?_
  · intro i
    cases h : json[i]? <;> run_go [h]
  · intro i hi
    have h : ¬ ((json.length : Int) - 1 < i) := by omega
    run_go [Src.core.body13, h]
    rfl
  · intro i; run_go []
  · rfl

theorem core_for15 (hf : json.length < fuel) {i : Nat} (hi : i ≤ json.length) (c : UInt8) (level : Int)
    (inQuote : Bool) (off : Int) (br : UInt8) (cur : Bytes) (ks : Int) :
    exec (ctx fl fuel (d + 1)) fuel Src.core.for15
      ⟨(), (go% curr, .byte c) :: (0, .nil) :: (go% i, .int i) :: (0, .nil) :: (go% inQuote, .bool inQuote) ::
        (go% level, .int level) :: (0, .nil) :: cEnv json js path (tbl true true) off br cur ks⟩ =
    match quoteScan json i i with
    | .real => .norm ⟨(), (go% curr, .byte c) :: (0, .nil) :: (go% i, .int i) :: (0, .nil) :: (go% inQuote, .bool (!inQuote)) ::
        (go% level, .int level) :: (0, .nil) :: cEnv json js path (tbl true true) off br cur ks⟩
    | _ => .norm ⟨(), (go% curr, .byte c) :: (0, .nil) :: (go% i, .int i) :: (0, .nil) :: (go% inQuote, .bool inQuote) ::
        (go% level, .int level) :: (0, .nil) :: cEnv json js path (tbl true true) off br cur ks⟩ := by
  run_go [Src.core.for15]
  refine (loop_quote (json := json) (i := i) (fun n => ⟨(), (go% n, .int n) :: (0, .nil) :: (go% curr, .byte c) :: (0, .nil) ::
      (go% i, .int i) :: (0, .nil) :: (go% inQuote, .bool inQuote) ::
        (go% level, .int level) :: (0, .nil) :: cEnv json js path (tbl true true) off br cur ks⟩)
      (.norm ⟨(), (go% curr, .byte c) :: (0, .nil) :: (go% i, .int i) :: (0, .nil) :: (go% inQuote, .bool (!inQuote)) ::
        (go% level, .int level) :: (0, .nil) :: cEnv json js path (tbl true true) off br cur ks⟩)
      (.norm ⟨(), (go% curr, .byte c) :: (0, .nil) :: (go% i, .int i) :: (0, .nil) :: (go% inQuote, .bool inQuote) ::
        (go% level, .int level) :: (0, .nil) :: cEnv json js path (tbl true true) off br cur ks⟩)
      (.norm ⟨(), (go% curr, .byte c) :: (0, .nil) :: (go% i, .int i) :: (0, .nil) :: (go% inQuote, .bool inQuote) ::
        (go% level, .int level) :: (0, .nil) :: cEnv json js path (tbl true true) off br cur ks⟩)
      ?_ ?_ ?_ ?_ hi fuel i (Nat.le_refl i) (by omega)).trans ?_
  · intro n; run_go []
  · intro n; run_go []
  · intro n; rfl
  · intro n ch hn hc
    cases h1 : ch == 92 <;> cases h2 : (i - n) % 2 == 0 <;> run_go [Src.core.body15, hc, h1, mod_sub hn, h2]
  · cases quoteScan json i i <;> rfl

theorem core_for14 (hf : json.length < fuel) (off : Nat) (br : UInt8) (cur : Bytes) (ks : Int) :
    exec (ctx fl fuel (d + 1)) fuel Src.core.for14
      ⟨(), (go% inQuote, .bool false) :: (go% level, .int 0) :: (0, .nil) :: cEnv json js path (tbl true true) off br cur ks⟩ =
    after (fun s : Int × Bool => ⟨(), (go% inQuote, .bool s.2) :: (go% level, .int s.1) :: (0, .nil) ::
        cEnv json js path (tbl true true) off br cur ks⟩) locRes
      (forUp json.length (braceBody json ks off) off (0, false)) := by
  run_go [Src.core.for14]
  refine (loop_forUp (hi := json.length) (b := braceBody json ks off) (fun i (s : Int × Bool) => ⟨(), (go% i, .int i) :: (0, .nil) ::
      (go% inQuote, .bool s.2) :: (go% level, .int s.1) :: (0, .nil) ::
        cEnv json js path (tbl true true) off br cur ks⟩) locRes
      (fun _ _ => True) (fun _ => True) ?_ ?_ locRes_ends
      (fun _ _ _ => trivial) ?_ fuel off (0, false) trivial (by omega)).leave _ ?_ locRes_ends
  · intro j s
    run_go []
  · intro j s
    run_go []
    rfl
  · intro i s hi _
    obtain ⟨c, hc⟩ := getElem?_of_lt hi
    obtain ⟨level, inQuote⟩ := s
    cases h0 : isJSONChar true true c
    · run_go [braceBody, Src.core.body14, hc, h0, Sim]
      done_go
    cases h1 : c == 34
    rotate_left
    · cases h2 : quoteScan json i i <;> run_go [braceBody, Src.core.body14, hc, h0, h1, core_for15 hf (Nat.le_of_lt hi), h2, Sim] <;>
        done_go
    cases inQuote <;> cases h2 : c == 91 <;> cases h3 : c == 123 <;> cases h4 : c == 93 <;> cases h5 : c == 125 <;>
      cases h6 : level == 1 <;>
      run_go [braceBody, Src.core.body14, hc, h0, h1, h2, h3, h4, h5, h6, Sim, locRes, locVals] <;> done_go
  · intro i s; rfl

theorem core_for16 (hf : json.length < fuel) (off : Nat) (br : UInt8) (cur : Bytes) (ks : Int) :
    exec (ctx fl fuel (d + 1)) fuel Src.core.for16 ⟨(), cEnv json js path (tbl true true) off br cur ks⟩ =
    after (fun _ : Unit => ⟨(), cEnv json js path (tbl true true) off br cur ks⟩) locRes
      (forUp json.length (stringBody json ks off) (off + 1) ()) := by
  run_go [Src.core.for16]
  refine (loop_forUp (hi := json.length) (b := stringBody json ks off) (fun i (s : Unit) => ⟨(), (go% i, .int i) :: (0, .nil) ::
        cEnv json js path (tbl true true) off br cur ks⟩) locRes
      (fun _ _ => True) (fun _ => True) ?_ ?_ locRes_ends
      (fun _ _ _ => trivial) ?_ fuel (off + 1) () trivial (by omega)).leave _ ?_ locRes_ends
  · intro j s
    run_go []
  · intro j s
    run_go []
    rfl
  · intro i s hi _
    obtain ⟨c, hc⟩ := getElem?_of_lt hi
    cases h1 : c == 92 <;> cases h2 : c == 34 <;>
      run_go [stringBody, Src.core.body16, hc, h1, h2, Sim, locRes, locVals, Nat.max_eq_right (Nat.le_succ i)] <;> done_go
  · intro i s; rfl

theorem core_for17 (hf : json.length < fuel) (off : Nat) (br : UInt8) (cur : Bytes) (ks : Int) :
    exec (ctx fl fuel (d + 1)) fuel Src.core.for17 ⟨(), cEnv json js path (tbl true true) off br cur ks⟩ =
    after (fun _ : Unit => ⟨(), cEnv json js path (tbl true true) off br cur ks⟩) locRes
      (forUp json.length (plainBody json ks off) off ()) := by
  run_go [Src.core.for17]
  refine (loop_forUp (hi := json.length) (b := plainBody json ks off) (fun i (s : Unit) => ⟨(), (go% i, .int i) :: (0, .nil) ::
        cEnv json js path (tbl true true) off br cur ks⟩) locRes
      (fun _ _ => True) (fun _ => True) ?_ ?_ locRes_ends
      (fun _ _ _ => trivial) ?_ fuel off () trivial (by omega)).leave _ ?_ locRes_ends
  · intro j s
    run_go []
  · intro j s
    run_go []
    rfl
  · intro i s hi _
    obtain ⟨c, hc⟩ := getElem?_of_lt hi
    cases h1 : space c <;> cases h2 : c == 44 <;> cases h3 : c == 93 <;> cases h4 : c == 125 <;> cases h5 : off == i <;>
      run_go [plainBody, Src.core.body17, hc, h1, h2, h3, h4, h5, Sim, locRes, locVals] <;> done_go
  · intro i s; rfl

/-- Running `core` of the text is `core` of the model. -/
theorem run_core (hf : json.length + path.length + (path.map List.length).sum < fuel) :
    (jin fl).fn fuel (d + 2) (go% core) true [.bytes json, .bool js, .strs path] = locVals (core json js path) := by
  rw [fn_run (g := Src.core) rfl]
  by_cases h1 : json.length < 2
  · run_go [Src.core, Func.run, bindParams, core, lt_two, h1, locVals]
  have hf' : json.length < fuel := by omega
  cases path with
  | nil =>
    run_go [Src.core, Func.run, bindParams, core, lt_two, h1, locVals, List.getElem?_nil]
  | cons p ps =>
    cases h2 : skipSpaces json 0 with
    | none =>
      have e2 := core_for2 (fl := fl) (d := d) (js := js) (path := p :: ps) hf' 0 (tbl true true) p
      simp only [Int.natCast_zero, h2] at e2
      run_go [Src.core, Func.run, bindParams, core, lt_two, h1, locVals, List.getElem?_cons_zero, core_for1, e2, h2]
    | some off =>
      have e2 := core_for2 (fl := fl) (d := d) (js := js) (path := p :: ps) hf' 0 (tbl true true) p
      simp only [Int.natCast_zero, h2] at e2
      cases h3 : json[off]? with
      | none =>
        run_go [Src.core, Func.run, bindParams, core, lt_two, h1, locVals, List.getElem?_cons_zero, core_for1, e2, h2, h3]
      | some br =>
        have e3 := core_for3 (fl := fl) (d := d) (js := js) hf off br p (-1) List.mem_cons_self
        simp only [core, h1, h2, h3, if_false]
        cases h4 : coreLoop json (p :: ps) (p :: ps).length ⟨0, off, br, p, -1⟩ with
        | ret r =>
          rw [h4] at e3
          simp only [after] at e3
          cases r <;>
          run_go [Src.core, Func.run, bindParams, lt_two, h1, locRes, locVals, List.getElem?_cons_zero, core_for1, e2, h3, e3]
        | done s =>
          rw [h4] at e3
          simp only [after] at e3
          obtain ⟨k, off', br', cur', ks'⟩ := s
          cases h5 : off' == 0
          rotate_left
          · run_go [Src.core, Func.run, bindParams, lt_two, h1, locVals, List.getElem?_cons_zero, core_for1, e2, h3, e3, coreTail, h5]
          have e4 := core_for13 (fl := fl) (d := d) (js := js) (path := p :: ps) hf' off' (tbl true true) br' cur' ks'
          cases h6 : skipSpaces json off' with
          | none =>
            simp only [h6] at e4
            run_go [Src.core, Func.run, bindParams, lt_two, h1, locVals, List.getElem?_cons_zero, core_for1, e2, h3, e3, coreTail,
              h5, h6, e4]
          | some m =>
            simp only [h6] at e4
            cases js
            rotate_left
            · run_go [Src.core, Func.run, bindParams, lt_two, h1, locVals, List.getElem?_cons_zero, core_for1, e2, h3, e3,
                coreTail, h5, h6, e4]
              rfl
            cases h7 : json[m]? with
            | none =>
              run_go [Src.core, Func.run, bindParams, lt_two, h1, locVals, List.getElem?_cons_zero, core_for1, e2, h3, e3,
                coreTail, h5, h6, e4, h7]
            | some c =>
              cases h8 : c == 91 || c == 123
              · simp only [Bool.or_eq_false_iff] at h8
                obtain ⟨h8, h9⟩ := h8
                cases h10 : c == 34
                · have e5 := core_for17 (fl := fl) (d := d) (js := false) (path := p :: ps) hf' m br' cur' ks'
                  cases h11 : forUp json.length (plainBody json ks' m) m () with
                  | ret r =>
                    rw [h11] at e5
                    simp only [after] at e5
                    cases r <;>
                      run_go [Src.core, Func.run, bindParams, lt_two, h1, locVals, List.getElem?_cons_zero, core_for1, e2, h3, e3,
                        coreTail, extent, h5, h6, e4, h7, h8, h9, h10, e5, h11, locRes]
                  | done r =>
                    rw [h11] at e5
                    simp only [after] at e5
                    run_go [Src.core, Func.run, bindParams, lt_two, h1, locVals, List.getElem?_cons_zero, core_for1, e2, h3, e3,
                      coreTail, extent, h5, h6, e4, h7, h8, h9, h10, e5, h11, locRes]
                · have e5 := core_for16 (fl := fl) (d := d) (js := false) (path := p :: ps) hf' m br' cur' ks'
                  cases h11 : forUp json.length (stringBody json ks' m) (m + 1) () with
                  | ret r =>
                    rw [h11] at e5
                    simp only [after] at e5
                    cases r <;>
                      run_go [Src.core, Func.run, bindParams, lt_two, h1, locVals, List.getElem?_cons_zero, core_for1, e2, h3, e3,
                        coreTail, extent, h5, h6, e4, h7, h8, h9, h10, e5, h11, locRes]
                  | done r =>
                    rw [h11] at e5
                    simp only [after] at e5
                    run_go [Src.core, Func.run, bindParams, lt_two, h1, locVals, List.getElem?_cons_zero, core_for1, e2, h3, e3,
                      coreTail, extent, h5, h6, e4, h7, h8, h9, h10, e5, h11, locRes]
              · have e5 := core_for14 (fl := fl) (d := d) (js := false) (path := p :: ps) hf' m br' cur' ks'
                cases h11 : forUp json.length (braceBody json ks' m) m (0, false) with
                | ret r =>
                  rw [h11] at e5
                  simp only [after] at e5
                  cases r <;>
                    run_go [Src.core, Func.run, bindParams, lt_two, h1, locVals, List.getElem?_cons_zero, core_for1, e2, h3, e3,
                      coreTail, extent, h5, h6, e4, h7, h8, e5, h11, locRes]
                | done r =>
                  rw [h11] at e5
                  simp only [after] at e5
                  run_go [Src.core, Func.run, bindParams, lt_two, h1, locVals, List.getElem?_cons_zero, core_for1, e2, h3, e3,
                    coreTail, extent, h5, h6, e4, h7, h8, e5, h11, locRes]

end

end Jin.Go
