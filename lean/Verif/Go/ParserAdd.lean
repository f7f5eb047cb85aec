import Verif.Go.ParserSet
import Verif.Proof.PtrParse
/-!
# Go.ParserAdd — `Parser.AddKeyValue`, `Add` and `Insert` in the text
-/

namespace Jin.Go

section
variable {fl : FloatLib UInt64} {fuel d : Nat} {h : NHeap}

/-- The test `len(json) >= 2` with `json[0] == o && json[len(json)-1] == c`. -/
theorem encl_cases (b : Bytes) (o c : UInt8) (e : Err) :
    (decide ((b.length : Int) ≥ 2) = false ∧ enclosed b o c e = some (.badJSON 0)) ∨
    (decide ((b.length : Int) ≥ 2) = true ∧ ∃ a z, b[0]? = some a ∧ elem b ((b.length : Int) - 1) = .ok z ∧
      (((a == o) = false ∧ enclosed b o c e = some e) ∨ ((a == o) = true ∧ (z == c) = false ∧ enclosed b o c e = some e) ∨
        ((a == o) = true ∧ (z == c) = true ∧ enclosed b o c e = none))) := by
  by_cases h2 : b.length < 2
  · exact .inl ⟨by simp; omega, by rw [enclosed, if_neg (by omega)]⟩
  · obtain ⟨a, z, h3, h4, h5, h6⟩ := ends_of h2
    refine .inr ⟨by simp; omega, a, z, h3, h5, ?_⟩
    have he : enclosed b o c e = if (a == o && z == c) then none else some e := by
      rw [enclosed, if_pos (by omega), h4, h6]; rfl
    cases ha : a == o <;> cases hz : z == c <;> rw [ha, hz] at he <;> simp [he]

/-- The test of `AddKeyValue` for a container, which looks at the length of the key. -/
theorem kc_cases (key v : Bytes) :
    (decide ((key.length : Int) ≥ 2) = false ∧ (if key.length ≥ 2 then (idx v 0).map fun c => c == 91 || c == 123 else Out.ok false) = .ok false) ∨
    (decide ((key.length : Int) ≥ 2) = true ∧
      ((v[0]? = none ∧ (if key.length ≥ 2 then (idx v 0).map fun c => c == 91 || c == 123 else Out.ok false) = .panic) ∨
       ∃ c, v[0]? = some c ∧
        (((c == 91) = false ∧ (c == 123) = false ∧ (if key.length ≥ 2 then (idx v 0).map fun c => c == 91 || c == 123 else Out.ok false) = .ok false) ∨
          ((((c == 91) = true ∧ (c == 123) = false) ∨ ((c == 91) = false ∧ (c == 123) = true)) ∧
            (if key.length ≥ 2 then (idx v 0).map fun c => c == 91 || c == 123 else Out.ok false) = .ok true)))) := by
  by_cases h2 : key.length ≥ 2
  · refine .inr ⟨by simp; omega, ?_⟩
    rw [if_pos h2]
    cases v with
    | nil => exact .inl ⟨rfl, rfl⟩
    | cons c cs =>
      refine .inr ⟨c, rfl, ?_⟩
      have hi : (idx (c :: cs) 0).map (fun c => c == 91 || c == 123) = .ok (c == 91 || c == 123) := rfl
      rw [hi]
      cases ht : (c == 91 || c == 123)
      · obtain ⟨h1, h3⟩ := Bool.or_eq_false_iff.1 ht
        exact .inl ⟨h1, h3, rfl⟩
      · exact .inr ⟨opens_test ht.symm, rfl⟩
  · exact .inl ⟨by simp; omega, by rw [if_neg h2]⟩

/-- The statements `newNode.label = l; newNode.value = v; curr.down = append(curr.down, newNode); newNode.up = curr`. -/
theorem attach_steps {h1 : NHeap} {q curr : Nat} {r : NodeRec} (hc : Closed h1) (hq : q < h1.length) (hr : h1[curr]? = some r) (hne : q ≠ curr) (l v : Bytes) :
    ∃ rq, node h1 q = .ok rq ∧ List.set h1 q ⟨l, rq.value, rq.up, rq.down⟩ = h1.setLabel q l ∧
      node (h1.setLabel q l) q = .ok ⟨l, rq.value, rq.up, rq.down⟩ ∧
      List.set (h1.setLabel q l) q ⟨l, v, rq.up, rq.down⟩ = (h1.setLabel q l).setValue q v ∧
      node ((h1.setLabel q l).setValue q v) curr = .ok r ∧
      List.set ((h1.setLabel q l).setValue q v) curr ⟨r.label, r.value, r.up, r.down ++ [q]⟩ = ((h1.setLabel q l).setValue q v).addDown curr q ∧
      node (((h1.setLabel q l).setValue q v).addDown curr q) q = .ok ⟨l, v, rq.up, rq.down⟩ ∧
      List.set (((h1.setLabel q l).setValue q v).addDown curr q) q ⟨l, v, some curr, rq.down⟩ = ((h1.setLabel q l).setValue q v).attach curr q ∧
      Closed (((h1.setLabel q l).setValue q v).attach curr q) ∧ (((h1.setLabel q l).setValue q v).attach curr q).length = h1.length := by
  obtain ⟨rq, hrq⟩ := node_at hq
  have hcl : curr < h1.length := by
    rcases Nat.lt_or_ge curr h1.length with h | h
    · exact h
    · rw [List.getElem?_eq_none h] at hr; cases hr
  have a1 := setLabel_at hrq l
  have a2 : ((h1.setLabel q l).setValue q v)[q]? = some ⟨l, v, rq.up, rq.down⟩ := by simp [NHeap.setValue, a1]
  have a3 : ((h1.setLabel q l).setValue q v)[curr]? = some r := by rw [setValue_ne hne, setLabel_ne hne, hr]
  have a4 : (((h1.setLabel q l).setValue q v).addDown curr q)[q]? = some ⟨l, v, rq.up, rq.down⟩ := by
    rw [NHeap.addDown, List.getElem?_modify, a2]; simp [Ne.symm hne]
  refine ⟨rq, node_ok hrq, label_eq hrq l, node_ok a1, value_eq a1 v, node_ok a3, addDown_eq a3 q, node_ok a4, up_eq a4 (some curr), ?_, by simp [NHeap.attach]⟩
  refine Closed.setUp (Closed.addDown ((hc.setLabel _ _).setValue _ _) _ (by simpa using hq)) _ fun x hx => ?_
  cases hx; simpa using hcl

theorem addKV_range1 (p : ParserP) (js key newVal : Bytes) (path : List Bytes) (down : List Nat) (f : Nat → Val) (hd : ∀ q ∈ down, q < h.length) :
    rangeN 0 (go% d) (fun s => exec (ctx fl fuel (d + 3)) fuel Src.Parser.AddKeyValue.body1 s) (down.mapIdx fun i c => (f i, .ptr c))
      ⟨(), [(0, .nil), (go% err, .nil), (go% json, .bytes js), (go% «%3», .nil), (go% «%2», .bytes js), (go% err, .nil), (go% curr, .ptr p.core), (go% lenv, .int key.length), (go% lenp, .int path.length), (0, .nil), (go% heap, .heap h), (go% p.core, .ptr p.core), (go% p.json, .bytes p.json), (go% key, .bytes key), (go% newVal, .bytes newVal), (go% path, .strs path)]⟩ =
    if (h.child? key down).isSome then .ret () [.heap h, .ptr p.core, .bytes p.json, .err (.keyAlreadyExist key)]
    else .norm ⟨(), [(0, .nil), (go% err, .nil), (go% json, .bytes js), (go% «%3», .nil), (go% «%2», .bytes js), (go% err, .nil), (go% curr, .ptr p.core), (go% lenv, .int key.length), (go% lenp, .int path.length), (0, .nil), (go% heap, .heap h), (go% p.core, .ptr p.core), (go% p.json, .bytes p.json), (go% key, .bytes key), (go% newVal, .bytes newVal), (go% path, .strs path)]⟩ :=
  range_label (fun q x hx => by cases e : x.label == key <;> run_go [Src.Parser.AddKeyValue.body1, node_ok hx, e]) down f hd

abbrev addKV2Env (p : ParserP) (h : NHeap) (js key newVal : Bytes) (path : List Bytes) (c0 : Nat) : Env :=
  [(go% «%10», .nil), (go% «%9», .ptr c0), (go% err, .nil), (go% json, .bytes js), (go% «%3», .nil), (go% «%2», .bytes js), (go% err, .nil), (go% curr, .ptr c0), (go% lenv, .int key.length), (go% lenp, .int path.length), (0, .nil), (go% heap, .heap h), (go% p.core, .ptr p.core), (go% p.json, .bytes p.json), (go% key, .bytes key), (go% newVal, .bytes newVal), (go% path, .strs path)]

theorem addKV_range2 (p : ParserP) (js key newVal : Bytes) (path : List Bytes) (c0 : Nat) (down : List Nat) (f : Nat → Val) (hd : ∀ q ∈ down, q < h.length) :
    rangeN 0 (go% d) (fun s => exec (ctx fl fuel (d + 3)) fuel Src.Parser.AddKeyValue.body2 s) (down.mapIdx fun i c => (f i, .ptr c)) ⟨(), addKV2Env p h js key newVal path c0⟩ =
    if (h.child? key down).isSome then .ret () [.heap h, .ptr p.core, .bytes p.json, .err (.keyAlreadyExist key)]
    else .norm ⟨(), addKV2Env p h js key newVal path c0⟩ :=
  range_label (fun q x hx => by cases e : x.label == key <;> run_go [Src.Parser.AddKeyValue.body2, node_ok hx, e]) down f hd

theorem newNode_false (h : NHeap) (l v : Bytes) : newNodeP h false l v = some (((h ++ [⟨[], [], none, []⟩] : NHeap).setLabel h.length l).setValue h.length v, h.length) := rfl

theorem newNode_true (h : NHeap) (l v : Bytes) : newNodeP h true l v = (pCoreP v h.length (h ++ [⟨[], [], none, []⟩])).map fun h1 => ((h1.setLabel h.length l).setValue h.length v, h.length) := by
  unfold newNodeP createNode NHeap.new
  cases e : pCoreP v h.length (h ++ [⟨[], [], none, []⟩]) <;> simp [e]

theorem pCore_frame {v : Bytes} {h1 : NHeap} (e : pCoreP v h.length (h ++ [⟨[], [], none, []⟩]) = some h1) {x : Nat} (hx : x < h.length) : h1[x]? = h[x]? := by
  have := pCore_rel v (h0 := h ++ [⟨[], [], none, []⟩]) (c0 := h.length) (up0 := none) (l := []) (v := []) (by simp)
  rw [e] at this
  cases hp : pCore v (.mk [] [] []) with
  | ok n =>
    rw [hp] at this
    obtain ⟨t, -, -, -, -, -, hf, -⟩ := this
    rw [hf x (by simp; omega) (by omega), List.getElem?_append_left hx]
  | err e => rw [hp] at this; exact this.elim
  | panic => rw [hp] at this; exact this.elim

theorem slice_tail (c : UInt8) (t : Bytes) : slice (c :: t) 1 ((c :: t).length : Nat) = .ok t := by
  rw [slice, if_pos (by simp; omega)]; simp

theorem len_two (b : Bytes) : ((b.length : Int) == 2) = (b.length == 2) := by
  rw [Bool.eq_iff_iff]; simp; omega

/-- `Parser.AddKeyValue` without a path. -/
theorem run_Parser_AddKeyValue_root (hh : Closed h) (p : ParserP) (hp : p.core < h.length) (key newVal : Bytes) {path : List Bytes} (h0 : (path.length == 0) = true) (hf : ∀ r ∈ h, r.value.length < fuel)
    (hf2 : newVal.length < fuel) :
    (jin fl).fn fuel (d + 4) (go% Parser.AddKeyValue) true [.heap h, .ptr p.core, .bytes p.json, .bytes key, .bytes newVal, .strs path] =
      presVals (p.AddKeyValue h key newVal path) := by
  rw [fn_run (g := Src.Parser.AddKeyValue) rfl]
  cases h1 : key.length == 0
  rotate_left
  · run_go [Func.run, Src.Parser.AddKeyValue, bindParams, h0, h1, ParserP.AddKeyValue, presVals, errVal]
  have hg := run_Parser_Get (fl := fl) (d := d) hh p hp path hf
  cases hx : p.Get h path with
  | panic => rw [hx] at hg; run_go [Func.run, Src.Parser.AddKeyValue, bindParams, h0, h1, ParserP.AddKeyValue, presVals, hg, hx]
  | err e => rw [hx] at hg; run_go [Func.run, Src.Parser.AddKeyValue, bindParams, h0, h1, ParserP.AddKeyValue, presVals, errVal, hg, hx]
  | ok json =>
    rw [hx] at hg
    obtain ⟨r, hr⟩ := node_at hp
    have e := addKV_range1 (fl := fl) (fuel := fuel) (d := d) p json key newVal path r.down (fun i => .int i) (hh p.core r hr).2
    cases hc : (h.child? key r.down).isSome
    rotate_left
    · rw [hc] at e
      run_go [Func.run, Src.Parser.AddKeyValue, Src.Parser.AddKeyValue.for1, bindParams, h0, h1, ParserP.AddKeyValue, presVals, hg, hx, node_ok hr, hr, e, hc, errVal]
    rw [hc] at e
    rcases encl_cases json 123 125 .objectExpected with ⟨h2, he⟩ | ⟨h2, a, z, h3, h4, ⟨h5, he⟩ | ⟨h5, h6, he⟩ | ⟨h5, h6, he⟩⟩
    · run_go [Func.run, Src.Parser.AddKeyValue, Src.Parser.AddKeyValue.for1, bindParams, h0, h1, ParserP.AddKeyValue, presVals, hg, hx, node_ok hr, hr, e, hc, errVal, h2, he]
    · run_go [Func.run, Src.Parser.AddKeyValue, Src.Parser.AddKeyValue.for1, bindParams, h0, h1, ParserP.AddKeyValue, presVals, hg, hx, node_ok hr, hr, e, hc, errVal, h2, h3, h4, h5, he]
    · run_go [Func.run, Src.Parser.AddKeyValue, Src.Parser.AddKeyValue.for1, bindParams, h0, h1, ParserP.AddKeyValue, presVals, hg, hx, node_ok hr, hr, e, hc, errVal, h2, h3, h4, h5, h6, he]
    · have hn : Closed (h ++ [⟨[], [], none, []⟩]) := hh.new (by simp) (by simp)
      have hnew := run_createNode (fl := fl) (fuel := fuel) (d := d + 2) (sp := false) (h := h) none
      simp only [createNode, NHeap.new, ptrVal_none] at hnew
      have hr1 : (h ++ [⟨[], [], none, []⟩] : NHeap)[p.core]? = some r := by rw [List.getElem?_append_left hp, hr]
      obtain ⟨rq, n1, l1, n2, l2, n3, l3, n4, l4, -, -⟩ := attach_steps hn (q := h.length) (by simp) hr1 (by omega) key newVal
      rcases kc_cases key newVal with ⟨k2, kc⟩ | ⟨k2, ⟨k3, kc⟩ | ⟨c, k3, ⟨k4, k5, kc⟩ | ⟨ht, kc⟩⟩⟩
      · rcases replace_cases p.json (44 :: 34 :: (key ++ [34, 58] ++ newVal)) ((p.json.length : Int) - 1) ((p.json.length : Int) - 1) with ⟨j, hj⟩ | hj <;>
          run_go [Func.run, Src.Parser.AddKeyValue, Src.Parser.AddKeyValue.for1, bindParams, h0, h1, ParserP.AddKeyValue, presVals, hg, hx, node_ok hr, hr, e, hc, errVal, h2, h3, h4, h5, h6, he, k2, kc, newNode_false, hnew, n1, l1, n2, l2, n3, l3, n4, l4, beforeLast, memberText, List.cons_append, hj, Bool.false_and]
      · run_go [Func.run, Src.Parser.AddKeyValue, Src.Parser.AddKeyValue.for1, bindParams, h0, h1, ParserP.AddKeyValue, presVals, hg, hx, node_ok hr, hr, e, hc, errVal, h2, h3, h4, h5, h6, he, k2, kc, k3]
      · rcases replace_cases p.json (44 :: 34 :: (key ++ [34, 58] ++ newVal)) ((p.json.length : Int) - 1) ((p.json.length : Int) - 1) with ⟨j, hj⟩ | hj <;>
          run_go [Func.run, Src.Parser.AddKeyValue, Src.Parser.AddKeyValue.for1, bindParams, h0, h1, ParserP.AddKeyValue, presVals, hg, hx, node_ok hr, hr, e, hc, errVal, h2, h3, h4, h5, h6, he, k2, kc, k3, k4, k5, newNode_false, hnew, n1, l1, n2, l2, n3, l3, n4, l4, beforeLast, memberText, List.cons_append, hj, Bool.false_and]
      · obtain ⟨e1, hcl1⟩ := run_pCore (fl := fl) (fuel := fuel) (d := d + 1) hf2 false (h ++ [⟨[], [], none, []⟩]) h.length hn (by simp)
        cases hpc : pCoreP newVal h.length (h ++ [⟨[], [], none, []⟩]) with
        | none =>
          rw [hpc] at e1
          rcases ht with ⟨k4, k5⟩ | ⟨k4, k5⟩ <;>
            run_go [Func.run, Src.Parser.AddKeyValue, Src.Parser.AddKeyValue.for1, bindParams, h0, h1, ParserP.AddKeyValue, presVals, hg, hx, node_ok hr, hr, e, hc, errVal, h2, h3, h4, h5, h6, he, k2, kc, k3, k4, k5, newNode_true, hnew, e1, hpc, Option.map_none]
        | some h1' =>
          rw [hpc] at e1
          obtain ⟨c1, c2⟩ := hcl1 h1' hpc
          rw [List.length_append, List.length_singleton] at c2
          obtain ⟨rq, n1, l1, n2, l2, n3, l3, n4, l4, -, -⟩ := attach_steps c1 (q := h.length) (by omega) ((pCore_frame hpc hp).trans hr) (by omega) key newVal
          have hl2' := len_two p.json
          cases hl2 : p.json.length == 2 <;> rw [hl2] at hl2'
          · rcases replace_cases p.json (44 :: 34 :: (key ++ [34, 58] ++ newVal)) ((p.json.length : Int) - 1) ((p.json.length : Int) - 1) with ⟨j, hj⟩ | hj <;>
            rcases ht with ⟨k4, k5⟩ | ⟨k4, k5⟩ <;>
              run_go [Func.run, Src.Parser.AddKeyValue, Src.Parser.AddKeyValue.for1, bindParams, h0, h1, ParserP.AddKeyValue, presVals, hg, hx, node_ok hr, hr, e, hc, errVal, h2, h3, h4, h5, h6, he, k2, kc, k3, k4, k5, newNode_true, hnew, e1, hpc, Option.map_some, hl2, hl2', n1, l1, n2, l2, n3, l3, n4, l4, beforeLast, memberText, List.cons_append, hj, Bool.true_and]
          · have hsl : slice (44 :: 34 :: (key ++ [34, 58] ++ newVal)) 1 ((44 :: 34 :: (key ++ [34, 58] ++ newVal)).length : Nat) = .ok (34 :: (key ++ [34, 58] ++ newVal)) := slice_tail _ _
            rcases replace_cases p.json (34 :: (key ++ [34, 58] ++ newVal)) ((p.json.length : Int) - 1) ((p.json.length : Int) - 1) with ⟨j, hj⟩ | hj <;>
            rcases ht with ⟨k4, k5⟩ | ⟨k4, k5⟩ <;>
              run_go [Func.run, Src.Parser.AddKeyValue, Src.Parser.AddKeyValue.for1, bindParams, h0, h1, ParserP.AddKeyValue, presVals, hg, hx, node_ok hr, hr, e, hc, errVal, h2, h3, h4, h5, h6, he, k2, kc, k3, k4, k5, newNode_true, hnew, e1, hpc, Option.map_some, hl2, hl2', hsl, n1, l1, n2, l2, n3, l3, n4, l4, beforeLast, memberText, List.cons_append, hj, Bool.true_and]

theorem need_front {json : Bytes} {path : List Bytes} {key : Bytes} {fuel : Nat} (h : need json (path ++ [key]) < fuel) : need json path < fuel := by
  have := need_take json (path ++ [key]) path.length
  rw [List.take_left] at this
  omega

/-- `Parser.AddKeyValue` with a path. -/
theorem run_Parser_AddKeyValue_path (hh : Closed h) (p : ParserP) (hp : p.core < h.length) (key newVal : Bytes) {path : List Bytes} (h0 : (path.length == 0) = false) (hf : ∀ r ∈ h, r.value.length < fuel)
    (hf1 : need p.json (path ++ [key]) < fuel) (hf2 : newVal.length < fuel)
    (hf3 : ∀ j, (Jin.AddKeyValue p.json key (some newVal) path).json? = some j → need j path < fuel) :
    (jin fl).fn fuel (d + 4) (go% Parser.AddKeyValue) true [.heap h, .ptr p.core, .bytes p.json, .bytes key, .bytes newVal, .strs path] =
      presVals (p.AddKeyValue h key newVal path) := by
  rw [fn_run (g := Src.Parser.AddKeyValue) rfl]
  cases h1 : key.length == 0
  rotate_left
  · run_go [Func.run, Src.Parser.AddKeyValue, bindParams, h1, ParserP.AddKeyValue, presVals, errVal]
  have hg := run_Parser_Get (fl := fl) (d := d) hh p hp path hf
  have hw := run_nodeWalk (fl := fl) (fuel := fuel) (d := d + 1) (sp := false) hh hp path
  have hs := run_addKeyValue (fl := fl) (d := d) (need_front hf1) key newVal hf1
  rw [show addKeyValue p.json key newVal path = Jin.AddKeyValue p.json key (some newVal) path from rfl] at hs
  cases hx : p.Get h path with
  | panic => rw [hx] at hg; run_go [Func.run, Src.Parser.AddKeyValue, Src.Parser.AddKeyValue.for2, bindParams, h0, h1, ParserP.AddKeyValue, presVals, hg, hx]
  | err e => rw [hx] at hg; run_go [Func.run, Src.Parser.AddKeyValue, Src.Parser.AddKeyValue.for2, bindParams, h0, h1, ParserP.AddKeyValue, presVals, hg, hx, errVal]
  | ok json =>
    rw [hx] at hg
    cases hx' : h.walk p.core path with
    | panic => rw [hx'] at hw; run_go [Func.run, Src.Parser.AddKeyValue, Src.Parser.AddKeyValue.for2, bindParams, h0, h1, ParserP.AddKeyValue, presVals, hg, hx, hw, hx']
    | err e => rw [hx'] at hw; run_go [Func.run, Src.Parser.AddKeyValue, Src.Parser.AddKeyValue.for2, bindParams, h0, h1, ParserP.AddKeyValue, presVals, hg, hx, errVal, hw, hx']
    | ok curr =>
      rw [hx'] at hw
      have hcl := walk_lt hh path hp hx'
      obtain ⟨r, hr⟩ := node_at hcl
      cases hup : r.up with
      | none => run_go [Func.run, Src.Parser.AddKeyValue, Src.Parser.AddKeyValue.for2, bindParams, h0, h1, ParserP.AddKeyValue, presVals, hg, hx, hw, hx', node_ok hr, hr, hup, Option.bind_some, Option.bind_none]
      | some up =>
        obtain ⟨u, hu⟩ := node_at ((hh curr r hr).1 up hup)
        have e := addKV_range2 (fl := fl) (fuel := fuel) (d := d) p json key newVal path curr u.down (fun i => .int i) (hh up u hu).2
        cases hc : (h.child? key u.down).isSome
        rotate_left
        · rw [hc] at e
          run_go [Func.run, Src.Parser.AddKeyValue, Src.Parser.AddKeyValue.for2, bindParams, h0, h1, ParserP.AddKeyValue, presVals, hg, hx, hw, hx', node_ok hr, hr, hup, Option.bind_some, node_ok hu, hu, e, hc, errVal]
        rw [hc] at e
        rcases encl_cases json 123 125 .objectExpected with ⟨h2, he⟩ | ⟨h2, a, z, h3, h4, ⟨h5, he⟩ | ⟨h5, h6, he⟩ | ⟨h5, h6, he⟩⟩
        · run_go [Func.run, Src.Parser.AddKeyValue, Src.Parser.AddKeyValue.for2, bindParams, h0, h1, ParserP.AddKeyValue, presVals, hg, hx, hw, hx', node_ok hr, hr, hup, Option.bind_some, node_ok hu, hu, e, hc, errVal, h2, he]
        · run_go [Func.run, Src.Parser.AddKeyValue, Src.Parser.AddKeyValue.for2, bindParams, h0, h1, ParserP.AddKeyValue, presVals, hg, hx, hw, hx', node_ok hr, hr, hup, Option.bind_some, node_ok hu, hu, e, hc, errVal, h2, h3, h4, h5, he]
        · run_go [Func.run, Src.Parser.AddKeyValue, Src.Parser.AddKeyValue.for2, bindParams, h0, h1, ParserP.AddKeyValue, presVals, hg, hx, hw, hx', node_ok hr, hr, hup, Option.bind_some, node_ok hu, hu, e, hc, errVal, h2, h3, h4, h5, h6, he]
        · have hn : Closed (h ++ [⟨[], [], none, []⟩]) := hh.new (by simp) (by simp)
          have hnew := run_createNode (fl := fl) (fuel := fuel) (d := d + 2) (sp := false) (h := h) none
          simp only [createNode, NHeap.new, ptrVal_none] at hnew
          have hr1 : (h ++ [⟨[], [], none, []⟩] : NHeap)[curr]? = some r := by rw [List.getElem?_append_left hcl, hr]
          obtain ⟨rq, n1, l1, n2, l2, n3, l3, n4, l4, cc, cl⟩ := attach_steps hn (q := h.length) (by simp) hr1 (by omega) key newVal
          rw [hup] at l3
          rcases kc_cases key newVal with ⟨k2, kc⟩ | ⟨k2, ⟨k3, kc⟩ | ⟨c, k3, ⟨k4, k5, kc⟩ | ⟨ht, kc⟩⟩⟩
          · have hne := newNode_false h key newVal
            cases hj : Jin.AddKeyValue p.json key (some newVal) path with
            | panic =>
              rw [hj] at hs
              run_go [Func.run, Src.Parser.AddKeyValue, Src.Parser.AddKeyValue.for2, bindParams, h0, h1, ParserP.AddKeyValue, presVals, hg, hx, hw, hx', node_ok hr, hr, hup, Option.bind_some, node_ok hu, hu, e, hc, errVal, h2, h3, h4, h5, h6, he, k2, kc, hne, hnew, n1, l1, n2, l2, n3, l3, n4, l4, hs, hj, mutVals]
            | done j e' =>
              rw [hj] at hs
              cases e' with
              | some x =>
                run_go [Func.run, Src.Parser.AddKeyValue, Src.Parser.AddKeyValue.for2, bindParams, h0, h1, ParserP.AddKeyValue, presVals, hg, hx, hw, hx', node_ok hr, hr, hup, Option.bind_some, node_ok hu, hu, e, hc, errVal, h2, h3, h4, h5, h6, he, k2, kc, hne, hnew, n1, l1, n2, l2, n3, l3, n4, l4, hs, hj, mutVals, errVal]
              | none =>
                have H := addKV4_for (fl := fl) (d := d) (hf3 j (by rw [hj]; rfl)) p json key newVal curr h.length h.length cc (by rw [cl]; first | omega | simp)
                rcases hq : climb j (prefixes path 1 path.length) h.length _ with _ | ⟨h', _ | x⟩
                · rw [hq] at H
                  run_go [Func.run, Src.Parser.AddKeyValue, Src.Parser.AddKeyValue.for2, bindParams, h0, h1, ParserP.AddKeyValue, presVals, hg, hx, hw, hx', node_ok hr, hr, hup, Option.bind_some, node_ok hu, hu, e, hc, errVal, h2, h3, h4, h5, h6, he, k2, kc, hne, hnew, n1, l1, n2, l2, n3, l3, n4, l4, hs, hj, mutVals, errVal, H, finishP, hq]
                · rw [hq] at H
                  obtain ⟨cu', H⟩ := H
                  run_go [Func.run, Src.Parser.AddKeyValue, Src.Parser.AddKeyValue.for2, bindParams, h0, h1, ParserP.AddKeyValue, presVals, hg, hx, hw, hx', node_ok hr, hr, hup, Option.bind_some, node_ok hu, hu, e, hc, errVal, h2, h3, h4, h5, h6, he, k2, kc, hne, hnew, n1, l1, n2, l2, n3, l3, n4, l4, hs, hj, mutVals, errVal, H, finishP, hq]
                · rw [hq] at H
                  run_go [Func.run, Src.Parser.AddKeyValue, Src.Parser.AddKeyValue.for2, bindParams, h0, h1, ParserP.AddKeyValue, presVals, hg, hx, hw, hx', node_ok hr, hr, hup, Option.bind_some, node_ok hu, hu, e, hc, errVal, h2, h3, h4, h5, h6, he, k2, kc, hne, hnew, n1, l1, n2, l2, n3, l3, n4, l4, hs, hj, mutVals, errVal, H, finishP, hq]
          · run_go [Func.run, Src.Parser.AddKeyValue, Src.Parser.AddKeyValue.for2, bindParams, h0, h1, ParserP.AddKeyValue, presVals, hg, hx, hw, hx', node_ok hr, hr, hup, Option.bind_some, node_ok hu, hu, e, hc, errVal, h2, h3, h4, h5, h6, he, k2, kc, k3]
          · have hne := newNode_false h key newVal
            cases hj : Jin.AddKeyValue p.json key (some newVal) path with
            | panic =>
              rw [hj] at hs
              run_go [Func.run, Src.Parser.AddKeyValue, Src.Parser.AddKeyValue.for2, bindParams, h0, h1, ParserP.AddKeyValue, presVals, hg, hx, hw, hx', node_ok hr, hr, hup, Option.bind_some, node_ok hu, hu, e, hc, errVal, h2, h3, h4, h5, h6, he, k2, kc, k3, k4, k5, hne, hnew, n1, l1, n2, l2, n3, l3, n4, l4, hs, hj, mutVals]
            | done j e' =>
              rw [hj] at hs
              cases e' with
              | some x =>
                run_go [Func.run, Src.Parser.AddKeyValue, Src.Parser.AddKeyValue.for2, bindParams, h0, h1, ParserP.AddKeyValue, presVals, hg, hx, hw, hx', node_ok hr, hr, hup, Option.bind_some, node_ok hu, hu, e, hc, errVal, h2, h3, h4, h5, h6, he, k2, kc, k3, k4, k5, hne, hnew, n1, l1, n2, l2, n3, l3, n4, l4, hs, hj, mutVals, errVal]
              | none =>
                have H := addKV4_for (fl := fl) (d := d) (hf3 j (by rw [hj]; rfl)) p json key newVal curr h.length h.length cc (by rw [cl]; first | omega | simp)
                rcases hq : climb j (prefixes path 1 path.length) h.length _ with _ | ⟨h', _ | x⟩
                · rw [hq] at H
                  run_go [Func.run, Src.Parser.AddKeyValue, Src.Parser.AddKeyValue.for2, bindParams, h0, h1, ParserP.AddKeyValue, presVals, hg, hx, hw, hx', node_ok hr, hr, hup, Option.bind_some, node_ok hu, hu, e, hc, errVal, h2, h3, h4, h5, h6, he, k2, kc, k3, k4, k5, hne, hnew, n1, l1, n2, l2, n3, l3, n4, l4, hs, hj, mutVals, errVal, H, finishP, hq]
                · rw [hq] at H
                  obtain ⟨cu', H⟩ := H
                  run_go [Func.run, Src.Parser.AddKeyValue, Src.Parser.AddKeyValue.for2, bindParams, h0, h1, ParserP.AddKeyValue, presVals, hg, hx, hw, hx', node_ok hr, hr, hup, Option.bind_some, node_ok hu, hu, e, hc, errVal, h2, h3, h4, h5, h6, he, k2, kc, k3, k4, k5, hne, hnew, n1, l1, n2, l2, n3, l3, n4, l4, hs, hj, mutVals, errVal, H, finishP, hq]
                · rw [hq] at H
                  run_go [Func.run, Src.Parser.AddKeyValue, Src.Parser.AddKeyValue.for2, bindParams, h0, h1, ParserP.AddKeyValue, presVals, hg, hx, hw, hx', node_ok hr, hr, hup, Option.bind_some, node_ok hu, hu, e, hc, errVal, h2, h3, h4, h5, h6, he, k2, kc, k3, k4, k5, hne, hnew, n1, l1, n2, l2, n3, l3, n4, l4, hs, hj, mutVals, errVal, H, finishP, hq]
          · obtain ⟨e1, hcl1⟩ := run_pCore (fl := fl) (fuel := fuel) (d := d + 1) hf2 false (h ++ [⟨[], [], none, []⟩]) h.length hn (by simp)
            cases hpc : pCoreP newVal h.length (h ++ [⟨[], [], none, []⟩]) with
            | none =>
              rw [hpc] at e1
              rcases ht with ⟨k4, k5⟩ | ⟨k4, k5⟩ <;>
                run_go [Func.run, Src.Parser.AddKeyValue, Src.Parser.AddKeyValue.for2, bindParams, h0, h1, ParserP.AddKeyValue, presVals, hg, hx, hw, hx', node_ok hr, hr, hup, Option.bind_some, node_ok hu, hu, e, hc, errVal, h2, h3, h4, h5, h6, he, k2, kc, k3, k4, k5, newNode_true, hnew, e1, hpc, Option.map_none]
            | some h1' =>
              rw [hpc] at e1
              obtain ⟨c1, c2⟩ := hcl1 h1' hpc
              rw [List.length_append, List.length_singleton] at c2
              have hne : newNodeP h true key newVal = some ((h1'.setLabel h.length key).setValue h.length newVal, h.length) := by rw [newNode_true, hpc]; rfl
              obtain ⟨rq, n1, l1, n2, l2, n3, l3, n4, l4, cc, cl⟩ := attach_steps c1 (q := h.length) (by omega) ((pCore_frame hpc hcl).trans hr) (by omega) key newVal
              rw [hup] at l3
              cases hj : Jin.AddKeyValue p.json key (some newVal) path with
              | panic =>
                rw [hj] at hs
                rcases ht with ⟨k4, k5⟩ | ⟨k4, k5⟩ <;>
                    run_go [Func.run, Src.Parser.AddKeyValue, Src.Parser.AddKeyValue.for2, bindParams, h0, h1, ParserP.AddKeyValue, presVals, hg, hx, hw, hx', node_ok hr, hr, hup, Option.bind_some, node_ok hu, hu, e, hc, errVal, h2, h3, h4, h5, h6, he, k2, kc, k3, k4, k5, hne, hnew, e1, n1, l1, n2, l2, n3, l3, n4, l4, hs, hj, mutVals]
              | done j e' =>
                rw [hj] at hs
                cases e' with
                | some x =>
                  rcases ht with ⟨k4, k5⟩ | ⟨k4, k5⟩ <;>
                    run_go [Func.run, Src.Parser.AddKeyValue, Src.Parser.AddKeyValue.for2, bindParams, h0, h1, ParserP.AddKeyValue, presVals, hg, hx, hw, hx', node_ok hr, hr, hup, Option.bind_some, node_ok hu, hu, e, hc, errVal, h2, h3, h4, h5, h6, he, k2, kc, k3, k4, k5, hne, hnew, e1, n1, l1, n2, l2, n3, l3, n4, l4, hs, hj, mutVals, errVal]
                | none =>
                  have H := addKV3_for (fl := fl) (d := d) (hf3 j (by rw [hj]; rfl)) p json key newVal curr h.length h.length cc (by rw [cl]; first | omega | simp)
                  rcases hq : climb j (prefixes path 1 path.length) h.length _ with _ | ⟨h', _ | x⟩
                  · rw [hq] at H
                    rcases ht with ⟨k4, k5⟩ | ⟨k4, k5⟩ <;>
                    run_go [Func.run, Src.Parser.AddKeyValue, Src.Parser.AddKeyValue.for2, bindParams, h0, h1, ParserP.AddKeyValue, presVals, hg, hx, hw, hx', node_ok hr, hr, hup, Option.bind_some, node_ok hu, hu, e, hc, errVal, h2, h3, h4, h5, h6, he, k2, kc, k3, k4, k5, hne, hnew, e1, n1, l1, n2, l2, n3, l3, n4, l4, hs, hj, mutVals, errVal, H, finishP, hq]
                  · rw [hq] at H
                    obtain ⟨cu', H⟩ := H
                    rcases ht with ⟨k4, k5⟩ | ⟨k4, k5⟩ <;>
                    run_go [Func.run, Src.Parser.AddKeyValue, Src.Parser.AddKeyValue.for2, bindParams, h0, h1, ParserP.AddKeyValue, presVals, hg, hx, hw, hx', node_ok hr, hr, hup, Option.bind_some, node_ok hu, hu, e, hc, errVal, h2, h3, h4, h5, h6, he, k2, kc, k3, k4, k5, hne, hnew, e1, n1, l1, n2, l2, n3, l3, n4, l4, hs, hj, mutVals, errVal, H, finishP, hq]
                  · rw [hq] at H
                    rcases ht with ⟨k4, k5⟩ | ⟨k4, k5⟩ <;>
                    run_go [Func.run, Src.Parser.AddKeyValue, Src.Parser.AddKeyValue.for2, bindParams, h0, h1, ParserP.AddKeyValue, presVals, hg, hx, hw, hx', node_ok hr, hr, hup, Option.bind_some, node_ok hu, hu, e, hc, errVal, h2, h3, h4, h5, h6, he, k2, kc, k3, k4, k5, hne, hnew, e1, n1, l1, n2, l2, n3, l3, n4, l4, hs, hj, mutVals, errVal, H, finishP, hq]


/-! ### Add -/

/-- The test of `Set`, `Add` and `Insert` for a container. -/
theorem vc_cases (v : Bytes) :
    (decide ((v.length : Int) ≥ 2) = false ∧ opensContainer v = false) ∨
    (decide ((v.length : Int) ≥ 2) = true ∧ ∃ c, v[0]? = some c ∧
      (((c == 91) = false ∧ (c == 123) = false ∧ opensContainer v = false) ∨
        ((((c == 91) = true ∧ (c == 123) = false) ∨ ((c == 91) = false ∧ (c == 123) = true)) ∧ opensContainer v = true))) := by
  by_cases h2 : 2 ≤ v.length
  · refine .inr ⟨by simp; omega, ?_⟩
    obtain ⟨c, cs, hv, ho⟩ := opens_cons h2
    refine ⟨c, by rw [hv]; rfl, ?_⟩
    rw [ho]
    cases ht : (c == 91 || c == 123)
    · obtain ⟨h1, h3⟩ := Bool.or_eq_false_iff.1 ht
      exact .inl ⟨h1, h3, rfl⟩
    · exact .inr ⟨opens_test ht.symm, rfl⟩
  · exact .inl ⟨by simp; omega, opens_short h2⟩

theorem walk_root {path : List Bytes} (h0 : (path.length == 0) = true) (h : NHeap) (n : Nat) : h.walk n path = .ok n := by
  cases path with
  | nil => rfl
  | cons a l => simp at h0

/-- `Parser.Add` without a path. -/
theorem run_Parser_Add_root (hh : Closed h) (p : ParserP) (hp : p.core < h.length) (newVal : Bytes) {path : List Bytes} (h0 : (path.length == 0) = true) (hf : ∀ r ∈ h, r.value.length < fuel)
    (hf2 : newVal.length < fuel) :
    (jin fl).fn fuel (d + 4) (go% Parser.Add) true [.heap h, .ptr p.core, .bytes p.json, .bytes newVal, .strs path] = presVals (p.Add h newVal path) := by
  rw [fn_run (g := Src.Parser.Add) rfl]
  cases h1 : newVal.length == 0
  rotate_left
  · run_go [Func.run, Src.Parser.Add, bindParams, h1, ParserP.Add, presVals, errVal]
  have hg := run_Parser_Get (fl := fl) (d := d) hh p hp path hf
  have hx' := walk_root h0 h p.core
  cases hx : p.Get h path with
  | panic => rw [hx] at hg; run_go [Func.run, Src.Parser.Add, bindParams, h0, h1, ParserP.Add, presVals, hg, hx]
  | err e => rw [hx] at hg; run_go [Func.run, Src.Parser.Add, bindParams, h0, h1, ParserP.Add, presVals, hg, hx, errVal]
  | ok json =>
    rw [hx] at hg
    obtain ⟨r, hr⟩ := node_at hp
    rcases encl_cases json 91 93 .arrayExpected with ⟨h2, he⟩ | ⟨h2, a, z, h3, h4, ⟨h5, he⟩ | ⟨h5, h6, he⟩ | ⟨h5, h6, he⟩⟩
    · run_go [Func.run, Src.Parser.Add, bindParams, h0, h1, ParserP.Add, presVals, hg, hx, hx', errVal, h2, he]
    · run_go [Func.run, Src.Parser.Add, bindParams, h0, h1, ParserP.Add, presVals, hg, hx, hx', errVal, h2, h3, h4, h5, he]
    · run_go [Func.run, Src.Parser.Add, bindParams, h0, h1, ParserP.Add, presVals, hg, hx, hx', errVal, h2, h3, h4, h5, h6, he]
    ·
      have hn : Closed (h ++ [⟨[], [], none, []⟩]) := hh.new (by simp) (by simp)
      have hnew := run_createNode (fl := fl) (fuel := fuel) (d := d + 2) (sp := false) (h := h) none
      simp only [createNode, NHeap.new, ptrVal_none] at hnew
      have hr1 : (h ++ [⟨[], [], none, []⟩] : NHeap)[p.core]? = some r := by rw [List.getElem?_append_left hp, hr]
      have n0 := node_ok hr1
      obtain ⟨rq, n1, l1, n2, l2, n3, l3, n4, l4, cc, cl⟩ := attach_steps hn (q := h.length) (by simp) hr1 (by omega) (itoa r.down.length) newVal
      rcases vc_cases newVal with ⟨k2, kc⟩ | ⟨k2, c, k3, ⟨k4, k5, kc⟩ | ⟨ht, kc⟩⟩
      · rcases replace_cases p.json (44 :: newVal) ((p.json.length : Int) - 1) ((p.json.length : Int) - 1) with ⟨j, hj⟩ | hj <;>
          run_go [Func.run, Src.Parser.Add, bindParams, h0, h1, ParserP.Add, presVals, hg, hx, hx', errVal, h2, h3, h4, h5, h6, he, k2, kc, node_ok hr, hr, newNode_false, hnew, n0, n1, l1, n2, l2, n3, l3, n4, l4, beforeLast, hj, Bool.false_and]
      · rcases replace_cases p.json (44 :: newVal) ((p.json.length : Int) - 1) ((p.json.length : Int) - 1) with ⟨j, hj⟩ | hj <;>
          run_go [Func.run, Src.Parser.Add, bindParams, h0, h1, ParserP.Add, presVals, hg, hx, hx', errVal, h2, h3, h4, h5, h6, he, k2, kc, node_ok hr, hr, k3, k4, k5, newNode_false, hnew, n0, n1, l1, n2, l2, n3, l3, n4, l4, beforeLast, hj, Bool.false_and]
      · obtain ⟨e1, hcl1⟩ := run_pCore (fl := fl) (fuel := fuel) (d := d + 1) hf2 false (h ++ [⟨[], [], none, []⟩]) h.length hn (by simp)
        cases hpc : pCoreP newVal h.length (h ++ [⟨[], [], none, []⟩]) with
        | none =>
          rw [hpc] at e1
          rcases ht with ⟨k4, k5⟩ | ⟨k4, k5⟩ <;>
            run_go [Func.run, Src.Parser.Add, bindParams, h0, h1, ParserP.Add, presVals, hg, hx, hx', errVal, h2, h3, h4, h5, h6, he, k2, kc, node_ok hr, hr, k3, k4, k5, newNode_true, hnew, e1, hpc, Option.map_none]
        | some h1' =>
          rw [hpc] at e1
          obtain ⟨c1, c2⟩ := hcl1 h1' hpc
          rw [List.length_append, List.length_singleton] at c2
          have hne : newNodeP h true (itoa r.down.length) newVal = some ((h1'.setLabel h.length (itoa r.down.length)).setValue h.length newVal, h.length) := by rw [newNode_true, hpc]; rfl
          have hr2 := (pCore_frame hpc hp).trans hr
          have n0 := node_ok hr2
          obtain ⟨rq, n1, l1, n2, l2, n3, l3, n4, l4, cc, cl⟩ := attach_steps c1 (q := h.length) (by omega) hr2 (by omega) (itoa r.down.length) newVal
          have hl2' := len_two p.json
          cases hl2 : p.json.length == 2 <;> rw [hl2] at hl2'
          · rcases replace_cases p.json (44 :: newVal) ((p.json.length : Int) - 1) ((p.json.length : Int) - 1) with ⟨j, hj⟩ | hj <;>
            rcases ht with ⟨k4, k5⟩ | ⟨k4, k5⟩ <;>
              run_go [Func.run, Src.Parser.Add, bindParams, h0, h1, ParserP.Add, presVals, hg, hx, hx', errVal, h2, h3, h4, h5, h6, he, k2, kc, node_ok hr, hr, k3, k4, k5, hne, hnew, e1, hl2, hl2', n0, n1, l1, n2, l2, n3, l3, n4, l4, beforeLast, hj, Bool.true_and]
          · have hsl : slice (44 :: newVal) 1 ((44 :: newVal).length : Nat) = .ok newVal := slice_tail _ _
            rcases replace_cases p.json (newVal) ((p.json.length : Int) - 1) ((p.json.length : Int) - 1) with ⟨j, hj⟩ | hj <;>
            rcases ht with ⟨k4, k5⟩ | ⟨k4, k5⟩ <;>
              run_go [Func.run, Src.Parser.Add, bindParams, h0, h1, ParserP.Add, presVals, hg, hx, hx', errVal, h2, h3, h4, h5, h6, he, k2, kc, node_ok hr, hr, k3, k4, k5, hne, hnew, e1, hl2, hl2', hsl, n0, n1, l1, n2, l2, n3, l3, n4, l4, beforeLast, hj, Bool.true_and]

/-- `Parser.Add` with a path. -/
theorem run_Parser_Add_path (hh : Closed h) (p : ParserP) (hp : p.core < h.length) (newVal : Bytes) {path : List Bytes} (h0 : (path.length == 0) = false) (hf : ∀ r ∈ h, r.value.length < fuel)
    (hf1 : need p.json path < fuel) (hf2 : newVal.length < fuel)
    (hf3 : ∀ j, (Jin.Add p.json newVal path).json? = some j → need j path < fuel) :
    (jin fl).fn fuel (d + 4) (go% Parser.Add) true [.heap h, .ptr p.core, .bytes p.json, .bytes newVal, .strs path] = presVals (p.Add h newVal path) := by
  rw [fn_run (g := Src.Parser.Add) rfl]
  cases h1 : newVal.length == 0
  rotate_left
  · run_go [Func.run, Src.Parser.Add, bindParams, h1, ParserP.Add, presVals, errVal]
  have hg := run_Parser_Get (fl := fl) (d := d) hh p hp path hf
  have hw := run_nodeWalk (fl := fl) (fuel := fuel) (d := d + 1) (sp := false) hh hp path
  have hs := run_Add (fl := fl) (d := d) hf1 newVal
  cases hx : p.Get h path with
  | panic => rw [hx] at hg; run_go [Func.run, Src.Parser.Add, bindParams, h0, h1, ParserP.Add, presVals, hg, hx]
  | err e => rw [hx] at hg; run_go [Func.run, Src.Parser.Add, bindParams, h0, h1, ParserP.Add, presVals, hg, hx, errVal]
  | ok json =>
    rw [hx] at hg
    cases hx' : h.walk p.core path with
    | panic => rw [hx'] at hw; run_go [Func.run, Src.Parser.Add, bindParams, h0, h1, ParserP.Add, presVals, hg, hx, hw, hx']
    | err e => rw [hx'] at hw; run_go [Func.run, Src.Parser.Add, bindParams, h0, h1, ParserP.Add, presVals, hg, hx, errVal, hw, hx']
    | ok curr =>
      rw [hx'] at hw
      have hcl := walk_lt hh path hp hx'
      obtain ⟨r, hr⟩ := node_at hcl
      rcases encl_cases json 91 93 .arrayExpected with ⟨h2, he⟩ | ⟨h2, a, z, h3, h4, ⟨h5, he⟩ | ⟨h5, h6, he⟩ | ⟨h5, h6, he⟩⟩
      · run_go [Func.run, Src.Parser.Add, bindParams, h0, h1, ParserP.Add, presVals, hg, hx, hx', errVal, h2, hw, he]
      · run_go [Func.run, Src.Parser.Add, bindParams, h0, h1, ParserP.Add, presVals, hg, hx, hx', errVal, h2, hw, h3, h4, h5, he]
      · run_go [Func.run, Src.Parser.Add, bindParams, h0, h1, ParserP.Add, presVals, hg, hx, hx', errVal, h2, hw, h3, h4, h5, h6, he]
      ·
        have hn : Closed (h ++ [⟨[], [], none, []⟩]) := hh.new (by simp) (by simp)
        have hnew := run_createNode (fl := fl) (fuel := fuel) (d := d + 2) (sp := false) (h := h) none
        simp only [createNode, NHeap.new, ptrVal_none] at hnew
        have hr1 : (h ++ [⟨[], [], none, []⟩] : NHeap)[curr]? = some r := by rw [List.getElem?_append_left hcl, hr]
        have n0 := node_ok hr1
        obtain ⟨rq, n1, l1, n2, l2, n3, l3, n4, l4, cc, cl⟩ := attach_steps hn (q := h.length) (by simp) hr1 (by omega) (itoa r.down.length) newVal
        rcases vc_cases newVal with ⟨k2, kc⟩ | ⟨k2, c, k3, ⟨k4, k5, kc⟩ | ⟨ht, kc⟩⟩
        · have hne := newNode_false h (itoa r.down.length) newVal
          cases hj : Jin.Add p.json newVal path with
          | panic =>
            rw [hj] at hs
            run_go [Func.run, Src.Parser.Add, bindParams, h0, h1, ParserP.Add, presVals, hg, hx, hx', errVal, h2, h3, h4, h5, h6, he, k2, kc, node_ok hr, hr, hw, hne, hnew, n0, n1, l1, n2, l2, n3, l3, n4, l4, hs, hj, mutVals]
          | done j e' =>
            rw [hj] at hs
            cases e' with
            | some x =>
              run_go [Func.run, Src.Parser.Add, bindParams, h0, h1, ParserP.Add, presVals, hg, hx, hx', errVal, h2, h3, h4, h5, h6, he, k2, kc, node_ok hr, hr, hw, hne, hnew, n0, n1, l1, n2, l2, n3, l3, n4, l4, hs, hj, mutVals, errVal]
            | none =>
              have H := add2_for (fl := fl) (d := d) (hf3 j (by rw [hj]; rfl)) p json newVal curr h.length r.down.length h.length cc (by rw [cl]; first | omega | simp)
              rcases hq : climb j (prefixes path 1 path.length) h.length _ with _ | ⟨h', _ | x⟩
              · rw [hq] at H
                run_go [Func.run, Src.Parser.Add, bindParams, h0, h1, ParserP.Add, presVals, hg, hx, hx', errVal, h2, h3, h4, h5, h6, he, k2, kc, node_ok hr, hr, hw, hne, hnew, n0, n1, l1, n2, l2, n3, l3, n4, l4, hs, hj, mutVals, errVal, H, finishP, hq]
              · rw [hq] at H
                obtain ⟨cu', H⟩ := H
                run_go [Func.run, Src.Parser.Add, bindParams, h0, h1, ParserP.Add, presVals, hg, hx, hx', errVal, h2, h3, h4, h5, h6, he, k2, kc, node_ok hr, hr, hw, hne, hnew, n0, n1, l1, n2, l2, n3, l3, n4, l4, hs, hj, mutVals, errVal, H, finishP, hq]
              · rw [hq] at H
                run_go [Func.run, Src.Parser.Add, bindParams, h0, h1, ParserP.Add, presVals, hg, hx, hx', errVal, h2, h3, h4, h5, h6, he, k2, kc, node_ok hr, hr, hw, hne, hnew, n0, n1, l1, n2, l2, n3, l3, n4, l4, hs, hj, mutVals, errVal, H, finishP, hq]
        · have hne := newNode_false h (itoa r.down.length) newVal
          cases hj : Jin.Add p.json newVal path with
          | panic =>
            rw [hj] at hs
            run_go [Func.run, Src.Parser.Add, bindParams, h0, h1, ParserP.Add, presVals, hg, hx, hx', errVal, h2, h3, h4, h5, h6, he, k2, kc, node_ok hr, hr, hw, k3, k4, k5, hne, hnew, n0, n1, l1, n2, l2, n3, l3, n4, l4, hs, hj, mutVals]
          | done j e' =>
            rw [hj] at hs
            cases e' with
            | some x =>
              run_go [Func.run, Src.Parser.Add, bindParams, h0, h1, ParserP.Add, presVals, hg, hx, hx', errVal, h2, h3, h4, h5, h6, he, k2, kc, node_ok hr, hr, hw, k3, k4, k5, hne, hnew, n0, n1, l1, n2, l2, n3, l3, n4, l4, hs, hj, mutVals, errVal]
            | none =>
              have H := add2_for (fl := fl) (d := d) (hf3 j (by rw [hj]; rfl)) p json newVal curr h.length r.down.length h.length cc (by rw [cl]; first | omega | simp)
              rcases hq : climb j (prefixes path 1 path.length) h.length _ with _ | ⟨h', _ | x⟩
              · rw [hq] at H
                run_go [Func.run, Src.Parser.Add, bindParams, h0, h1, ParserP.Add, presVals, hg, hx, hx', errVal, h2, h3, h4, h5, h6, he, k2, kc, node_ok hr, hr, hw, k3, k4, k5, hne, hnew, n0, n1, l1, n2, l2, n3, l3, n4, l4, hs, hj, mutVals, errVal, H, finishP, hq]
              · rw [hq] at H
                obtain ⟨cu', H⟩ := H
                run_go [Func.run, Src.Parser.Add, bindParams, h0, h1, ParserP.Add, presVals, hg, hx, hx', errVal, h2, h3, h4, h5, h6, he, k2, kc, node_ok hr, hr, hw, k3, k4, k5, hne, hnew, n0, n1, l1, n2, l2, n3, l3, n4, l4, hs, hj, mutVals, errVal, H, finishP, hq]
              · rw [hq] at H
                run_go [Func.run, Src.Parser.Add, bindParams, h0, h1, ParserP.Add, presVals, hg, hx, hx', errVal, h2, h3, h4, h5, h6, he, k2, kc, node_ok hr, hr, hw, k3, k4, k5, hne, hnew, n0, n1, l1, n2, l2, n3, l3, n4, l4, hs, hj, mutVals, errVal, H, finishP, hq]
        · obtain ⟨e1, hcl1⟩ := run_pCore (fl := fl) (fuel := fuel) (d := d + 1) hf2 false (h ++ [⟨[], [], none, []⟩]) h.length hn (by simp)
          cases hpc : pCoreP newVal h.length (h ++ [⟨[], [], none, []⟩]) with
          | none =>
            rw [hpc] at e1
            rcases ht with ⟨k4, k5⟩ | ⟨k4, k5⟩ <;>
              run_go [Func.run, Src.Parser.Add, bindParams, h0, h1, ParserP.Add, presVals, hg, hx, hx', errVal, h2, h3, h4, h5, h6, he, k2, kc, node_ok hr, hr, hw, k3, k4, k5, newNode_true, hnew, e1, hpc, Option.map_none]
          | some h1' =>
            rw [hpc] at e1
            obtain ⟨c1, c2⟩ := hcl1 h1' hpc
            rw [List.length_append, List.length_singleton] at c2
            have hne : newNodeP h true (itoa r.down.length) newVal = some ((h1'.setLabel h.length (itoa r.down.length)).setValue h.length newVal, h.length) := by rw [newNode_true, hpc]; rfl
            have hr2 := (pCore_frame hpc hcl).trans hr
            have n0 := node_ok hr2
            obtain ⟨rq, n1, l1, n2, l2, n3, l3, n4, l4, cc, cl⟩ := attach_steps c1 (q := h.length) (by omega) hr2 (by omega) (itoa r.down.length) newVal
            cases hj : Jin.Add p.json newVal path with
            | panic =>
              rw [hj] at hs
              rcases ht with ⟨k4, k5⟩ | ⟨k4, k5⟩ <;>
                  run_go [Func.run, Src.Parser.Add, bindParams, h0, h1, ParserP.Add, presVals, hg, hx, hx', errVal, h2, h3, h4, h5, h6, he, k2, kc, node_ok hr, hr, hw, k3, k4, k5, hne, hnew, e1, n0, n1, l1, n2, l2, n3, l3, n4, l4, hs, hj, mutVals]
            | done j e' =>
              rw [hj] at hs
              cases e' with
              | some x =>
                rcases ht with ⟨k4, k5⟩ | ⟨k4, k5⟩ <;>
                  run_go [Func.run, Src.Parser.Add, bindParams, h0, h1, ParserP.Add, presVals, hg, hx, hx', errVal, h2, h3, h4, h5, h6, he, k2, kc, node_ok hr, hr, hw, k3, k4, k5, hne, hnew, e1, n0, n1, l1, n2, l2, n3, l3, n4, l4, hs, hj, mutVals, errVal]
              | none =>
                have H := add1_for (fl := fl) (d := d) (hf3 j (by rw [hj]; rfl)) p json newVal curr h.length r.down.length h.length cc (by rw [cl]; first | omega | simp)
                rcases hq : climb j (prefixes path 2 path.length) h.length _ with _ | ⟨h', _ | x⟩
                · rw [hq] at H
                  rcases ht with ⟨k4, k5⟩ | ⟨k4, k5⟩ <;>
                  run_go [Func.run, Src.Parser.Add, bindParams, h0, h1, ParserP.Add, presVals, hg, hx, hx', errVal, h2, h3, h4, h5, h6, he, k2, kc, node_ok hr, hr, hw, k3, k4, k5, hne, hnew, e1, n0, n1, l1, n2, l2, n3, l3, n4, l4, hs, hj, mutVals, errVal, H, finishP, hq]
                · rw [hq] at H
                  obtain ⟨cu', H⟩ := H
                  rcases ht with ⟨k4, k5⟩ | ⟨k4, k5⟩ <;>
                  run_go [Func.run, Src.Parser.Add, bindParams, h0, h1, ParserP.Add, presVals, hg, hx, hx', errVal, h2, h3, h4, h5, h6, he, k2, kc, node_ok hr, hr, hw, k3, k4, k5, hne, hnew, e1, n0, n1, l1, n2, l2, n3, l3, n4, l4, hs, hj, mutVals, errVal, H, finishP, hq]
                · rw [hq] at H
                  rcases ht with ⟨k4, k5⟩ | ⟨k4, k5⟩ <;>
                  run_go [Func.run, Src.Parser.Add, bindParams, h0, h1, ParserP.Add, presVals, hg, hx, hx', errVal, h2, h3, h4, h5, h6, he, k2, kc, node_ok hr, hr, hw, k3, k4, k5, hne, hnew, e1, n0, n1, l1, n2, l2, n3, l3, n4, l4, hs, hj, mutVals, errVal, H, finishP, hq]

end

end Jin.Go
