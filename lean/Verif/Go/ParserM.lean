import Verif.Go.Parser
/-!
# Go.ParserM — the methods of `Parser` in the text

A pointer to a `Parser` is read as its two fields: a method gets the memory of nodes and them, and returns them before
its own results.
-/

namespace Jin.Go

/-- What a mutating method returns. -/
def presVals : PResP → R (List Val)
  | .done p h e => .ok [.heap h, .ptr p.core, .bytes p.json, errVal e]
  | .panic => .panic

theorem prefixes_eq (path : List Bytes) (m n : Nat) : prefixes path m n = (List.range' 0 (n + 1 - m)).map fun i => path.take (n - i) := by
  apply List.ext_getElem
  · simp [prefixes]
  · intro i h1 h2
    simp only [prefixes, List.length_reverse, List.length_map, List.length_range'] at h1
    simp only [prefixes, List.getElem_reverse, List.getElem_map, List.getElem_range', List.length_map, List.length_range', Nat.zero_add, Nat.one_mul]
    congr 1
    omega

theorem need_take (json : Bytes) (path : List Bytes) (n : Nat) : need json (path.take n) ≤ need json path := by
  have h : path.take n ++ path.drop n = path := List.take_append_drop n path
  have : need json path = need json (path.take n ++ path.drop n) := by rw [h]
  rw [this]
  simp only [need, List.length_append, List.map_append, List.sum_append]
  omega

theorem cut_take (path : List Bytes) {n : Nat} {j : Int} (hj : j = (n : Int)) (hn : n ≤ path.length) : cut path 0 j = .ok (path.take n) := by
  rw [hj, cut, if_pos ⟨by omega, by omega, by omega⟩]
  simp

/-- The loops that refresh the ancestors. -/
theorem loop_climb {c : St Unit → R Bool} {post body : St Unit → Res Unit} {json : Bytes} {path : List Bytes} {hi top : Nat}
    (E : Nat → Nat → NHeap → St Unit) (ret : NHeap → Err → Res Unit)
    (hc : ∀ i cu h, c (E i cu h) = .ok (decide (i < hi)))
    (hp : ∀ i cu h, post (E i cu h) = .norm (E (i + 1) cu h))
    (hr : ∀ h e, (ret h e).ends = true)
    (hb : ∀ i cu (h : NHeap), i < hi → Closed h → cu < h.length →
      match h[cu]?.bind NodeRec.up with
      | none => body (E i cu h) = .panic
      | some u =>
        match Jin.Get json (path.take (top - i)) with
        | .panic => body (E i cu h) = .panic
        | .err e => body (E i cu h) = ret (h.setValue u []) e
        | .ok v => (body (E i cu h)).goes = some (E i u (h.setValue u v))) :
    ∀ n i cu (h : NHeap), Closed h → cu < h.length → i ≤ hi → hi - i < n →
      match climb json ((List.range' i (hi - i)).map fun i => path.take (top - i)) cu h with
      | none => loopN c post body n (E i cu h) = .panic
      | some (h', none) => ∃ cu', loopN c post body n (E i cu h) = .norm (E hi cu' h')
      | some (h', some e) => loopN c post body n (E i cu h) = ret h' e := by
  intro n
  induction n with
  | zero => intro i cu h _ _ _ h; omega
  | succ n ih =>
    intro i cu h hh hcu hi1 hn
    by_cases hlt : i < hi
    · obtain ⟨m, hm⟩ : ∃ m, hi - i = m + 1 := ⟨hi - i - 1, by omega⟩
      have hct : c (E i cu h) = .ok true := by rw [hc]; simp [hlt]
      have hb := hb i cu h hlt hh hcu
      obtain ⟨r, hr'⟩ := node_at hcu
      rw [hm, List.range'_succ, List.map_cons, climb]
      cases hu : h[cu]?.bind NodeRec.up with
      | none =>
        rw [hu] at hb
        show loopN c post body (n + 1) (E i cu h) = .panic
        have hb : body (E i cu h) = .panic := hb
        rw [loopN_ends hct (by rw [hb]; rfl), hb]
      | some u =>
        rw [hu] at hb
        have hul : u < h.length := by
          rw [hr'] at hu
          exact (hh cu r hr').1 u hu
        cases hg : Jin.Get json (path.take (top - i)) with
        | panic =>
          rw [hg] at hb
          show loopN c post body (n + 1) (E i cu h) = .panic
          have hb : body (E i cu h) = .panic := hb
          rw [loopN_ends hct (by rw [hb]; rfl), hb]
        | err e =>
          rw [hg] at hb
          show loopN c post body (n + 1) (E i cu h) = ret (h.setValue u []) e
          have hb : body (E i cu h) = ret (h.setValue u []) e := hb
          rw [loopN_ends hct (by rw [hb]; exact hr _ _), hb]
        | ok v =>
          rw [hg] at hb
          have hb : (body (E i cu h)).goes = some (E i u (h.setValue u v)) := hb
          have ih := ih (i + 1) u (h.setValue u v) (hh.setValue _ _) (by simpa using hul) (by omega) (by omega)
          rw [show hi - (i + 1) = m by omega] at ih
          have e : loopN c post body (n + 1) (E i cu h) = loopN c post body n (E (i + 1) u (h.setValue u v)) := by
            rw [loopN_goes hct hb, hp]; rfl
          simp only
          rw [e]
          exact ih
    · have : i = hi := by omega
      subst this
      have hct : c (E i cu h) = .ok false := by rw [hc]; simp
      rw [Nat.sub_self]
      exact ⟨cu, loopN_end hct⟩

/-- The same for the loop of `SetKey`, which ignores the error. -/
theorem loop_climbQuiet {c : St Unit → R Bool} {post body : St Unit → Res Unit} {json : Bytes} {path : List Bytes} {hi top : Nat}
    (E : Nat → Nat → NHeap → St Unit)
    (hc : ∀ i cu h, c (E i cu h) = .ok (decide (i < hi)))
    (hp : ∀ i cu h, post (E i cu h) = .norm (E (i + 1) cu h))
    (hb : ∀ i cu (h : NHeap), i < hi → Closed h → cu < h.length →
      match h[cu]?.bind NodeRec.up with
      | none => body (E i cu h) = .panic
      | some u =>
        match Jin.Get json (path.take (top - i)) with
        | .panic => body (E i cu h) = .panic
        | .err _ => (body (E i cu h)).goes = some (E i u (h.setValue u []))
        | .ok v => (body (E i cu h)).goes = some (E i u (h.setValue u v))) :
    ∀ n i cu (h : NHeap), Closed h → cu < h.length → i ≤ hi → hi - i < n →
      match climbQuiet json ((List.range' i (hi - i)).map fun i => path.take (top - i)) cu h with
      | none => loopN c post body n (E i cu h) = .panic
      | some h' => ∃ cu', loopN c post body n (E i cu h) = .norm (E hi cu' h') := by
  intro n
  induction n with
  | zero => intro i cu h _ _ _ h; omega
  | succ n ih =>
    intro i cu h hh hcu hi1 hn
    by_cases hlt : i < hi
    · obtain ⟨m, hm⟩ : ∃ m, hi - i = m + 1 := ⟨hi - i - 1, by omega⟩
      have hct : c (E i cu h) = .ok true := by rw [hc]; simp [hlt]
      have hb := hb i cu h hlt hh hcu
      obtain ⟨r, hr'⟩ := node_at hcu
      rw [hm, List.range'_succ, List.map_cons, climbQuiet]
      cases hu : h[cu]?.bind NodeRec.up with
      | none =>
        rw [hu] at hb
        show loopN c post body (n + 1) (E i cu h) = .panic
        have hb : body (E i cu h) = .panic := hb
        rw [loopN_ends hct (by rw [hb]; rfl), hb]
      | some u =>
        rw [hu] at hb
        have hul : u < h.length := by
          rw [hr'] at hu
          exact (hh cu r hr').1 u hu
        have go : ∀ v, (body (E i cu h)).goes = some (E i u (h.setValue u v)) →
            match climbQuiet json ((List.range' (i + 1) m).map fun i => path.take (top - i)) u (h.setValue u v) with
            | none => loopN c post body (n + 1) (E i cu h) = .panic
            | some h' => ∃ cu', loopN c post body (n + 1) (E i cu h) = .norm (E hi cu' h') := by
          intro v hb
          have ih := ih (i + 1) u (h.setValue u v) (hh.setValue _ _) (by simpa using hul) (by omega) (by omega)
          rw [show hi - (i + 1) = m by omega] at ih
          have e : loopN c post body (n + 1) (E i cu h) = loopN c post body n (E (i + 1) u (h.setValue u v)) := by
            rw [loopN_goes hct hb, hp]; rfl
          rw [e]
          exact ih
        cases hg : Jin.Get json (path.take (top - i)) with
        | panic =>
          rw [hg] at hb
          show loopN c post body (n + 1) (E i cu h) = .panic
          have hb : body (E i cu h) = .panic := hb
          rw [loopN_ends hct (by rw [hb]; rfl), hb]
        | err e => rw [hg] at hb; exact go [] hb
        | ok v => rw [hg] at hb; exact go v hb
    · have : i = hi := by omega
      subst this
      have hct : c (E i cu h) = .ok false := by rw [hc]; simp
      rw [Nat.sub_self]
      exact ⟨cu, loopN_end hct⟩

section
variable {fl : FloatLib UInt64} {fuel d : Nat} {sp : Bool} {h : NHeap}

/-! ### Parse, Get and JSON -/

theorem run_Parse (hh : Closed h) {json : Bytes} (hf : json.length < fuel) :
    match ParseP json h with
    | .ok (p, h') => (jin fl).fn fuel (d + 3) (go% Parse) sp [.heap h, .bytes json] = .ok [.heap h', .ptr p.core, .bytes p.json, .nil] ∧
        Closed h' ∧ p.core < h'.length ∧ h.length ≤ h'.length
    | .err e => ∃ h', (jin fl).fn fuel (d + 3) (go% Parse) sp [.heap h, .bytes json] = .ok [.heap h', .nil, .nil, .err e] ∧ Closed h' ∧ h.length ≤ h'.length ∧
        pCoreP json h.length (h ++ [⟨[], [], none, []⟩]) = some h'
    | .panic => (jin fl).fn fuel (d + 3) (go% Parse) sp [.heap h, .bytes json] = .panic := by
  rw [fn_run (g := Src.Parse) rfl]
  have hn : Closed (h ++ [⟨[], [], none, []⟩]) := hh.new (by simp) (by simp)
  obtain ⟨e, hc⟩ := run_pCore (fl := fl) (fuel := fuel) (d := d) hf false (h ++ [⟨[], [], none, []⟩]) h.length hn (by simp)
  cases hp : pCoreP json h.length (h ++ [⟨[], [], none, []⟩]) with
  | none =>
    rw [hp] at e
    simp only [ParseP, createNode, NHeap.new, hp]
    run_go [Func.run, Src.Parse, bindParams, e]
  | some h' =>
    rw [hp] at e
    obtain ⟨c1, c2⟩ := hc h' hp
    rw [List.length_append, List.length_singleton] at c2
    obtain ⟨r, hr⟩ := node_at (h := h') (p := h.length) (by omega)
    simp only [ParseP, createNode, NHeap.new, hp, hr]
    cases hd : r.down with
    | nil =>
      refine ⟨h', ?_, c1, by omega, rfl⟩
      run_go [Func.run, Src.Parse, bindParams, e, node_ok hr, hd, List.isEmpty_nil]
    | cons c cs =>
      refine ⟨?_, c1, (c1 _ r hr).2 c (by simp [hd]), by omega⟩
      have he : elem (c :: cs) 0 = .ok c := rfl
      run_go [Func.run, Src.Parse, bindParams, e, node_ok hr, hd, List.isEmpty_cons, he]

/-- What `Parser.Get` returns. -/
theorem run_Parser_Get (hh : Closed h) (p : ParserP) (hp : p.core < h.length) (path : List Bytes) (hf : ∀ r ∈ h, r.value.length < fuel) :
    (jin fl).fn fuel (d + 3) (go% Parser.Get) true [.heap h, .ptr p.core, .bytes p.json, .strs path] =
    match p.Get h path with
    | .ok v => .ok [.heap h, .ptr p.core, .bytes p.json, .bytes v, .nil]
    | .err e => .ok [.heap h, .ptr p.core, .bytes p.json, .nil, .err e]
    | .panic => .panic := by
  rw [fn_run (g := Src.Parser.Get) rfl]
  have hw := run_nodeWalk (fl := fl) (fuel := fuel) (d := d) (sp := false) hh hp path
  cases h0 : path.length == 0
  rotate_left
  · run_go [Func.run, Src.Parser.Get, bindParams, h0, ParserP.Get]
  cases hx : h.walk p.core path with
  | panic => rw [hx] at hw; run_go [Func.run, Src.Parser.Get, bindParams, h0, ParserP.Get, hw, hx]
  | err e => rw [hx] at hw; run_go [Func.run, Src.Parser.Get, bindParams, h0, ParserP.Get, hw, hx]
  | ok c =>
    rw [hx] at hw
    obtain ⟨r, hr⟩ := node_at (walk_lt hh path hp hx)
    have hv := run_cleanValue (fl := fl) (fuel := fuel) (d := d) (sp := false) r.value (hf r (List.mem_of_getElem? hr))
    rcases cv_cases r.value with ⟨v, hc⟩ | hc <;> rw [hc] at hv <;>
      run_go [Func.run, Src.Parser.Get, bindParams, h0, ParserP.Get, hw, hx, node_ok hr, hr, hv, hc]

end

end Jin.Go
