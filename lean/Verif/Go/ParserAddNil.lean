import Verif.Go.ParserText
import Verif.Model.ParserNil
/-!
# Go.ParserAddNil — `Parser.AddKeyValue` of nil in the text
-/

namespace Jin.Go

section
variable {fl : FloatLib UInt64} {fuel d : Nat} {h : NHeap} {json : Bytes}

abbrev nilKV4Env (p : ParserP) (json : Bytes) (h : NHeap) (cu : Nat) (js key : Bytes) (path : List Bytes) (c0 q : Nat) : Env :=
  [(go% newNode, .ptr cu), (go% «%15», .ptr q), (0, .nil), (0, .nil), (go% «%10», .nil), (go% «%9», .ptr c0), (go% err, .nil), (go% json, .bytes js), (go% «%3», .nil), (go% «%2», .bytes js), (go% err, .nil), (go% curr, .ptr c0), (go% lenv, .int key.length), (go% lenp, .int path.length), (0, .nil), (go% heap, .heap h), (go% p.core, .ptr p.core), (go% p.json, .bytes json), (go% key, .bytes key), (go% newVal, .nil), (go% path, .strs path)]

theorem nilKV4_body {path : List Bytes} (hf : need json path < fuel) (p : ParserP) (js key : Bytes) (c0 q : Nat) (i cu : Nat) (hi : i < path.length) (hh : Closed h) (hcu : cu < h.length) :
    match h[cu]?.bind NodeRec.up with
    | none => exec (ctx fl fuel (d + 3)) fuel Src.Parser.AddKeyValue.body4 ⟨(), (go% i, .int i) :: (0, .nil) :: nilKV4Env p json h cu js key path c0 q⟩ = .panic
    | some u =>
      match Jin.Get json (path.take (path.length - i)) with
      | .panic => exec (ctx fl fuel (d + 3)) fuel Src.Parser.AddKeyValue.body4 ⟨(), (go% i, .int i) :: (0, .nil) :: nilKV4Env p json h cu js key path c0 q⟩ = .panic
      | .err e => exec (ctx fl fuel (d + 3)) fuel Src.Parser.AddKeyValue.body4 ⟨(), (go% i, .int i) :: (0, .nil) :: nilKV4Env p json h cu js key path c0 q⟩ =
          .ret () [.heap (h.setValue u []), .ptr p.core, .bytes json, .err e]
      | .ok v => (exec (ctx fl fuel (d + 3)) fuel Src.Parser.AddKeyValue.body4 ⟨(), (go% i, .int i) :: (0, .nil) :: nilKV4Env p json h cu js key path c0 q⟩).goes =
          some ⟨(), (go% i, .int i) :: (0, .nil) :: nilKV4Env p json (h.setValue u v) u js key path c0 q⟩ := by
  obtain ⟨r, hr⟩ := node_at hcu
  have hk : cut path 0 ((path.length : Int) - i) = .ok (path.take (path.length - i)) := cut_take path (by omega) (by omega)
  have hg := run_Get (fl := fl) (d := d) (Nat.lt_of_le_of_lt (need_take json path (path.length - i)) hf)
  cases hu : r.up with
  | none =>
    rw [hr]
    simp only [Option.bind_some, hu]
    cases hx : Jin.Get json (path.take (path.length - i)) <;> rw [hx] at hg <;>
      run_go [Src.Parser.AddKeyValue.body4, node_ok hr, hu, hk, hg, hx, oneVal]
  | some u =>
    obtain ⟨x, hx⟩ := node_at ((hh cu r hr).1 u hu)
    have hs : ∀ v, List.set h u { x with value := v } = h.setValue u v := fun v => set_modify (fun r : NodeRec => { r with value := v }) hx
    rw [hr]
    simp only [Option.bind_some, hu]
    cases hg' : Jin.Get json (path.take (path.length - i)) <;> rw [hg'] at hg <;>
      run_go [Src.Parser.AddKeyValue.body4, node_ok hr, hu, hk, hg, node_ok hx, hs, oneVal]

theorem nilKV4_for {path : List Bytes} (hf : need json path < fuel) (p : ParserP) (js key : Bytes) (c0 q : Nat) (cu : Nat) (hh : Closed h) (hcu : cu < h.length) :
    match climb json (prefixes path 1 path.length) cu h with
    | none => exec (ctx fl fuel (d + 3)) fuel Src.Parser.AddKeyValue.for4 ⟨(), nilKV4Env p json h cu js key path c0 q⟩ = .panic
    | some (h', none) => ∃ cu', exec (ctx fl fuel (d + 3)) fuel Src.Parser.AddKeyValue.for4 ⟨(), nilKV4Env p json h cu js key path c0 q⟩ =
        .norm ⟨(), nilKV4Env p json h' cu' js key path c0 q⟩
    | some (h', some e) => exec (ctx fl fuel (d + 3)) fuel Src.Parser.AddKeyValue.for4 ⟨(), nilKV4Env p json h cu js key path c0 q⟩ =
        .ret () [.heap h', .ptr p.core, .bytes json, .err e] := by
  have H := loop_climb (c := fun s => (eval (ctx fl fuel (d + 3)) s.env (.bin .lt (.var (go% i)) (.var (go% lenp)))).bind Val.bool?)
    (post := fun s => exec (ctx fl fuel (d + 3)) fuel (.assign (go% i) (.bin .add (.var (go% i)) (.lit (.int 1)))) s)
    (body := fun s => exec (ctx fl fuel (d + 3)) fuel Src.Parser.AddKeyValue.body4 s) (json := json) (path := path) (hi := path.length) (top := path.length)
    (fun i cu h => ⟨(), (go% i, .int i) :: (0, .nil) :: nilKV4Env p json h cu js key path c0 q⟩)
    (fun h e => .ret () [.heap h, .ptr p.core, .bytes json, .err e])
    (fun i cu h => by run_go []) (fun i cu h => by run_go []; rfl) (fun _ _ => rfl)
    (fun i cu h hi hh hcu => nilKV4_body hf p js key c0 q i cu hi hh hcu)
    fuel 0 cu h hh hcu (Nat.zero_le _) (by simp only [need] at hf; omega)
  have hq : prefixes path 1 path.length = (List.range' 0 (path.length - 0)).map fun i => path.take (path.length - i) := by
    rw [prefixes_eq]; simp only [show path.length + 1 - 1 = path.length - 0 by omega]
  rw [hq]
  rcases e : climb json ((List.range' 0 (path.length - 0)).map fun i => path.take (path.length - i)) cu h with _ | ⟨h', _ | x⟩
  · rw [e] at H
    run_go [Src.Parser.AddKeyValue.for4]
    exact (congrArg Res.leave H).trans rfl
  · rw [e] at H
    obtain ⟨cu', H⟩ := H
    refine ⟨cu', ?_⟩
    run_go [Src.Parser.AddKeyValue.for4]
    exact (congrArg Res.leave H).trans rfl
  · rw [e] at H
    run_go [Src.Parser.AddKeyValue.for4]
    exact (congrArg Res.leave H).trans rfl

theorem nilKV_range1 (p : ParserP) (js key : Bytes) (path : List Bytes) (down : List Nat) (f : Nat → Val) (hd : ∀ q ∈ down, q < h.length) :
    rangeN 0 (go% d) (fun s => exec (ctx fl fuel (d + 3)) fuel Src.Parser.AddKeyValue.body1 s) (down.mapIdx fun i c => (f i, .ptr c))
      ⟨(), [(0, .nil), (go% err, .nil), (go% json, .bytes js), (go% «%3», .nil), (go% «%2», .bytes js), (go% err, .nil), (go% curr, .ptr p.core), (go% lenv, .int key.length), (go% lenp, .int path.length), (0, .nil), (go% heap, .heap h), (go% p.core, .ptr p.core), (go% p.json, .bytes p.json), (go% key, .bytes key), (go% newVal, .nil), (go% path, .strs path)]⟩ =
    if (h.child? key down).isSome then .ret () [.heap h, .ptr p.core, .bytes p.json, .err (.keyAlreadyExist key)]
    else .norm ⟨(), [(0, .nil), (go% err, .nil), (go% json, .bytes js), (go% «%3», .nil), (go% «%2», .bytes js), (go% err, .nil), (go% curr, .ptr p.core), (go% lenv, .int key.length), (go% lenp, .int path.length), (0, .nil), (go% heap, .heap h), (go% p.core, .ptr p.core), (go% p.json, .bytes p.json), (go% key, .bytes key), (go% newVal, .nil), (go% path, .strs path)]⟩ :=
  range_label (fun q x hx => by cases e : x.label == key <;> run_go [Src.Parser.AddKeyValue.body1, node_ok hx, e]) down f hd

abbrev nilKV2Env (p : ParserP) (h : NHeap) (js key : Bytes) (path : List Bytes) (c0 : Nat) : Env :=
  [(go% «%10», .nil), (go% «%9», .ptr c0), (go% err, .nil), (go% json, .bytes js), (go% «%3», .nil), (go% «%2», .bytes js), (go% err, .nil), (go% curr, .ptr c0), (go% lenv, .int key.length), (go% lenp, .int path.length), (0, .nil), (go% heap, .heap h), (go% p.core, .ptr p.core), (go% p.json, .bytes p.json), (go% key, .bytes key), (go% newVal, .nil), (go% path, .strs path)]

theorem nilKV_range2 (p : ParserP) (js key : Bytes) (path : List Bytes) (c0 : Nat) (down : List Nat) (f : Nat → Val) (hd : ∀ q ∈ down, q < h.length) :
    rangeN 0 (go% d) (fun s => exec (ctx fl fuel (d + 3)) fuel Src.Parser.AddKeyValue.body2 s) (down.mapIdx fun i c => (f i, .ptr c)) ⟨(), nilKV2Env p h js key path c0⟩ =
    if (h.child? key down).isSome then .ret () [.heap h, .ptr p.core, .bytes p.json, .err (.keyAlreadyExist key)]
    else .norm ⟨(), nilKV2Env p h js key path c0⟩ :=
  range_label (fun q x hx => by cases e : x.label == key <;> run_go [Src.Parser.AddKeyValue.body2, node_ok hx, e]) down f hd

/-- `Parser.AddKeyValue` of nil without a path. -/
theorem run_Parser_AddKeyValueNil_root (hh : Closed h) (p : ParserP) (hp : p.core < h.length) (key : Bytes) {path : List Bytes} (h0 : (path.length == 0) = true) (hf : ∀ r ∈ h, r.value.length < fuel) :
    (jin fl).fn fuel (d + 4) (go% Parser.AddKeyValue) true [.heap h, .ptr p.core, .bytes p.json, .bytes key, .nil, .strs path] =
      presVals (p.AddKeyValueNil h key path) := by
  rw [fn_run (g := Src.Parser.AddKeyValue) rfl]
  cases h1 : key.length == 0
  rotate_left
  · run_go [Func.run, Src.Parser.AddKeyValue, bindParams, h0, h1, ParserP.AddKeyValueNil, presVals, errVal]
  have hg := run_Parser_Get (fl := fl) (d := d) hh p hp path hf
  cases hx : p.Get h path with
  | panic => rw [hx] at hg; run_go [Func.run, Src.Parser.AddKeyValue, bindParams, h0, h1, ParserP.AddKeyValueNil, presVals, hg, hx]
  | err e => rw [hx] at hg; run_go [Func.run, Src.Parser.AddKeyValue, bindParams, h0, h1, ParserP.AddKeyValueNil, presVals, errVal, hg, hx]
  | ok json =>
    rw [hx] at hg
    obtain ⟨r, hr⟩ := node_at hp
    have e := nilKV_range1 (fl := fl) (fuel := fuel) (d := d) p json key path r.down (fun i => .int i) (hh p.core r hr).2
    cases hc : (h.child? key r.down).isSome
    rotate_left
    · rw [hc] at e
      run_go [Func.run, Src.Parser.AddKeyValue, Src.Parser.AddKeyValue.for1, bindParams, h0, h1, ParserP.AddKeyValueNil, presVals, hg, hx, node_ok hr, hr, e, hc, errVal]
    rw [hc] at e
    rcases encl_cases json 123 125 .objectExpected with ⟨h2, he⟩ | ⟨h2, a, z, h3, h4, ⟨h5, he⟩ | ⟨h5, h6, he⟩ | ⟨h5, h6, he⟩⟩
    · run_go [Func.run, Src.Parser.AddKeyValue, Src.Parser.AddKeyValue.for1, bindParams, h0, h1, ParserP.AddKeyValueNil, presVals, hg, hx, node_ok hr, hr, e, hc, errVal, h2, he]
    · run_go [Func.run, Src.Parser.AddKeyValue, Src.Parser.AddKeyValue.for1, bindParams, h0, h1, ParserP.AddKeyValueNil, presVals, hg, hx, node_ok hr, hr, e, hc, errVal, h2, h3, h4, h5, he]
    · run_go [Func.run, Src.Parser.AddKeyValue, Src.Parser.AddKeyValue.for1, bindParams, h0, h1, ParserP.AddKeyValueNil, presVals, hg, hx, node_ok hr, hr, e, hc, errVal, h2, h3, h4, h5, h6, he]
    · have hn : Closed (h ++ [⟨[], [], none, []⟩]) := hh.new (by simp) (by simp)
      have hnew := run_createNode (fl := fl) (fuel := fuel) (d := d + 2) (sp := false) (h := h) none
      simp only [createNode, NHeap.new, ptrVal_none] at hnew
      have hr1 : (h ++ [⟨[], [], none, []⟩] : NHeap)[p.core]? = some r := by rw [List.getElem?_append_left hp, hr]
      obtain ⟨rq, n1, l1, n2, l2, n3, l3, n4, l4, -, -⟩ := attach_steps hn (q := h.length) (by simp) hr1 (by omega) key []
      have hne := newNode_false h key []
      by_cases hk : key.length ≥ 2
      · have k2 : decide ((key.length : Int) ≥ 2) = true := by simp; omega
        run_go [Func.run, Src.Parser.AddKeyValue, Src.Parser.AddKeyValue.for1, bindParams, h0, h1, ParserP.AddKeyValueNil, presVals, hg, hx, node_ok hr, hr, e, hc, errVal, h2, h3, h4, h5, h6, he, k2, if_pos hk, List.append_nil]
      · have k2 : decide ((key.length : Int) ≥ 2) = false := by simp; omega
        rcases replace_cases p.json (44 :: 34 :: (key ++ [34, 58])) ((p.json.length : Int) - 1) ((p.json.length : Int) - 1) with ⟨j, hj⟩ | hj <;>
          run_go [Func.run, Src.Parser.AddKeyValue, Src.Parser.AddKeyValue.for1, bindParams, h0, h1, ParserP.AddKeyValueNil, presVals, hg, hx, node_ok hr, hr, e, hc, errVal, h2, h3, h4, h5, h6, he, k2, if_neg hk, hne, hnew, n1, l1, n2, l2, n3, l3, n4, l4, beforeLast, memberText, List.cons_append, List.append_nil, hj]

/-- `Parser.AddKeyValue` of nil with a path. -/
theorem run_Parser_AddKeyValueNil_path (hh : Closed h) (p : ParserP) (hp : p.core < h.length) (key : Bytes) {path : List Bytes} (h0 : (path.length == 0) = false) (hf : ∀ r ∈ h, r.value.length < fuel)
    (hf1 : need p.json (path ++ [key]) < fuel) (hf3 : ∀ j, (Jin.AddKeyValue p.json key none path).json? = some j → need j path < fuel) :
    (jin fl).fn fuel (d + 5) (go% Parser.AddKeyValue) true [.heap h, .ptr p.core, .bytes p.json, .bytes key, .nil, .strs path] =
      presVals (p.AddKeyValueNil h key path) := by
  rw [fn_run (g := Src.Parser.AddKeyValue) rfl]
  cases h1 : key.length == 0
  rotate_left
  · run_go [Func.run, Src.Parser.AddKeyValue, bindParams, h1, ParserP.AddKeyValueNil, presVals, errVal]
  have hg := run_Parser_Get (fl := fl) (d := d + 1) hh p hp path hf
  have hw := run_nodeWalk (fl := fl) (fuel := fuel) (d := d + 2) (sp := false) hh hp path
  have hs := run_AddKeyValue' (fl := fl) (d := d) (need_front hf1) key none hf1
  rw [show optBytes none = Val.nil from rfl] at hs
  cases hx : p.Get h path with
  | panic => rw [hx] at hg; run_go [Func.run, Src.Parser.AddKeyValue, Src.Parser.AddKeyValue.for2, bindParams, h0, h1, ParserP.AddKeyValueNil, presVals, hg, hx]
  | err e => rw [hx] at hg; run_go [Func.run, Src.Parser.AddKeyValue, Src.Parser.AddKeyValue.for2, bindParams, h0, h1, ParserP.AddKeyValueNil, presVals, hg, hx, errVal]
  | ok json =>
    rw [hx] at hg
    cases hx' : h.walk p.core path with
    | panic => rw [hx'] at hw; run_go [Func.run, Src.Parser.AddKeyValue, Src.Parser.AddKeyValue.for2, bindParams, h0, h1, ParserP.AddKeyValueNil, presVals, hg, hx, hw, hx']
    | err e => rw [hx'] at hw; run_go [Func.run, Src.Parser.AddKeyValue, Src.Parser.AddKeyValue.for2, bindParams, h0, h1, ParserP.AddKeyValueNil, presVals, hg, hx, errVal, hw, hx']
    | ok curr =>
      rw [hx'] at hw
      have hcl := walk_lt hh path hp hx'
      obtain ⟨r, hr⟩ := node_at hcl
      cases hup : r.up with
      | none => run_go [Func.run, Src.Parser.AddKeyValue, Src.Parser.AddKeyValue.for2, bindParams, h0, h1, ParserP.AddKeyValueNil, presVals, hg, hx, hw, hx', node_ok hr, hr, hup, Option.bind_some, Option.bind_none]
      | some up =>
        obtain ⟨u, hu⟩ := node_at ((hh curr r hr).1 up hup)
        have e := nilKV_range2 (fl := fl) (fuel := fuel) (d := d + 1) p json key path curr u.down (fun i => .int i) (hh up u hu).2
        cases hc : (h.child? key u.down).isSome
        rotate_left
        · rw [hc] at e
          run_go [Func.run, Src.Parser.AddKeyValue, Src.Parser.AddKeyValue.for2, bindParams, h0, h1, ParserP.AddKeyValueNil, presVals, hg, hx, hw, hx', node_ok hr, hr, hup, Option.bind_some, node_ok hu, hu, e, hc, errVal]
        rw [hc] at e
        rcases encl_cases json 123 125 .objectExpected with ⟨h2, he⟩ | ⟨h2, a, z, h3, h4, ⟨h5, he⟩ | ⟨h5, h6, he⟩ | ⟨h5, h6, he⟩⟩
        · run_go [Func.run, Src.Parser.AddKeyValue, Src.Parser.AddKeyValue.for2, bindParams, h0, h1, ParserP.AddKeyValueNil, presVals, hg, hx, hw, hx', node_ok hr, hr, hup, Option.bind_some, node_ok hu, hu, e, hc, errVal, h2, he]
        · run_go [Func.run, Src.Parser.AddKeyValue, Src.Parser.AddKeyValue.for2, bindParams, h0, h1, ParserP.AddKeyValueNil, presVals, hg, hx, hw, hx', node_ok hr, hr, hup, Option.bind_some, node_ok hu, hu, e, hc, errVal, h2, h3, h4, h5, he]
        · run_go [Func.run, Src.Parser.AddKeyValue, Src.Parser.AddKeyValue.for2, bindParams, h0, h1, ParserP.AddKeyValueNil, presVals, hg, hx, hw, hx', node_ok hr, hr, hup, Option.bind_some, node_ok hu, hu, e, hc, errVal, h2, h3, h4, h5, h6, he]
        · have hn : Closed (h ++ [⟨[], [], none, []⟩]) := hh.new (by simp) (by simp)
          have hnew := run_createNode (fl := fl) (fuel := fuel) (d := d + 3) (sp := false) (h := h) none
          simp only [createNode, NHeap.new, ptrVal_none] at hnew
          have hr1 : (h ++ [⟨[], [], none, []⟩] : NHeap)[curr]? = some r := by rw [List.getElem?_append_left hcl, hr]
          obtain ⟨rq, n1, l1, n2, l2, n3, l3, n4, l4, cc, cl⟩ := attach_steps hn (q := h.length) (by simp) hr1 (by omega) key []
          rw [hup] at l3
          have hne := newNode_false h key []
          by_cases hk : key.length ≥ 2
          · have k2 : decide ((key.length : Int) ≥ 2) = true := by simp; omega
            run_go [Func.run, Src.Parser.AddKeyValue, Src.Parser.AddKeyValue.for2, bindParams, h0, h1, ParserP.AddKeyValueNil, presVals, hg, hx, hw, hx', node_ok hr, hr, hup, Option.bind_some, node_ok hu, hu, e, hc, errVal, h2, h3, h4, h5, h6, he, k2, if_pos hk]
          · have k2 : decide ((key.length : Int) ≥ 2) = false := by simp; omega
            cases hj : Jin.AddKeyValue p.json key none path with
            | panic =>
              rw [hj] at hs
              run_go [Func.run, Src.Parser.AddKeyValue, Src.Parser.AddKeyValue.for2, bindParams, h0, h1, ParserP.AddKeyValueNil, presVals, hg, hx, hw, hx', node_ok hr, hr, hup, Option.bind_some, node_ok hu, hu, e, hc, errVal, h2, h3, h4, h5, h6, he, k2, if_neg hk, hne, hnew, n1, l1, n2, l2, n3, l3, n4, l4, hs, hj, mutVals]
            | done j e' =>
              rw [hj] at hs
              cases e' with
              | some x =>
                run_go [Func.run, Src.Parser.AddKeyValue, Src.Parser.AddKeyValue.for2, bindParams, h0, h1, ParserP.AddKeyValueNil, presVals, hg, hx, hw, hx', node_ok hr, hr, hup, Option.bind_some, node_ok hu, hu, e, hc, errVal, h2, h3, h4, h5, h6, he, k2, if_neg hk, hne, hnew, n1, l1, n2, l2, n3, l3, n4, l4, hs, hj, mutVals, errVal]
              | none =>
                have H := nilKV4_for (fl := fl) (d := d + 1) (hf3 j (by rw [hj]; rfl)) p json key curr h.length h.length cc (by rw [cl]; first | omega | simp)
                rcases hq : climb j (prefixes path 1 path.length) h.length _ with _ | ⟨h', _ | x⟩
                · rw [hq] at H
                  run_go [Func.run, Src.Parser.AddKeyValue, Src.Parser.AddKeyValue.for2, bindParams, h0, h1, ParserP.AddKeyValueNil, presVals, hg, hx, hw, hx', node_ok hr, hr, hup, Option.bind_some, node_ok hu, hu, e, hc, errVal, h2, h3, h4, h5, h6, he, k2, if_neg hk, hne, hnew, n1, l1, n2, l2, n3, l3, n4, l4, hs, hj, mutVals, errVal, H, finishP, hq]
                · rw [hq] at H
                  obtain ⟨cu', H⟩ := H
                  run_go [Func.run, Src.Parser.AddKeyValue, Src.Parser.AddKeyValue.for2, bindParams, h0, h1, ParserP.AddKeyValueNil, presVals, hg, hx, hw, hx', node_ok hr, hr, hup, Option.bind_some, node_ok hu, hu, e, hc, errVal, h2, h3, h4, h5, h6, he, k2, if_neg hk, hne, hnew, n1, l1, n2, l2, n3, l3, n4, l4, hs, hj, mutVals, errVal, H, finishP, hq]
                · rw [hq] at H
                  run_go [Func.run, Src.Parser.AddKeyValue, Src.Parser.AddKeyValue.for2, bindParams, h0, h1, ParserP.AddKeyValueNil, presVals, hg, hx, hw, hx', node_ok hr, hr, hup, Option.bind_some, node_ok hu, hu, e, hc, errVal, h2, h3, h4, h5, h6, he, k2, if_neg hk, hne, hnew, n1, l1, n2, l2, n3, l3, n4, l4, hs, hj, mutVals, errVal, H, finishP, hq]

end

/-- `Parser.AddKeyValue` with a nil value, in the text. -/
theorem text_Parser_AddKeyValueNil (fl : FloatLib UInt64) {h : NHeap} (hh : Closed h) (p : ParserP) (hp : p.core < h.length) (key : Bytes) (path : List Bytes) :
    Call fl (go% Parser.AddKeyValue) [.heap h, .ptr p.core, .bytes p.json, .bytes key, .nil] path (presVals (p.AddKeyValueNil h key path)) :=
  Call.of (g := Src.Parser.AddKeyValue) (ps := [_, _, _, _, _]) rfl rfl rfl rfl
    (roomH h + need p.json (path ++ [key]) + roomM path (Jin.AddKeyValue p.json key none path)) 4 fun _ _ hn => by
    have hv : ∀ r ∈ h, r.value.length < _ := fun r hr => by have := roomH_le hr; exact Nat.lt_of_le_of_lt (by omega) hn
    cases h0 : path.length == 0
    · exact run_Parser_AddKeyValueNil_path hh p hp key h0 hv (by omega) (roomM_le (by omega))
    · exact run_Parser_AddKeyValueNil_root hh p hp key h0 hv

end Jin.Go
