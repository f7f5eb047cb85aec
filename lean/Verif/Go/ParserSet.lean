import Verif.Go.ParserLoops
/-!
# Go.ParserSet — `Parser.Set`, `SetKey` and `Delete` in the text, with the typed forms of `Set`
-/

namespace Jin.Go

section
variable {h : NHeap} {p : Nat} {r : NodeRec}

theorem label_eq (hr : h[p]? = some r) (l : Bytes) : List.set h p ⟨l, r.value, r.up, r.down⟩ = h.setLabel p l :=
  set_modify (fun r : NodeRec => { r with label := l }) hr
theorem value_eq (hr : h[p]? = some r) (v : Bytes) : List.set h p ⟨r.label, v, r.up, r.down⟩ = h.setValue p v :=
  set_modify (fun r : NodeRec => { r with value := v }) hr
theorem up_eq (hr : h[p]? = some r) (u : Option Nat) : List.set h p ⟨r.label, r.value, u, r.down⟩ = h.setUp p u :=
  set_modify (fun r : NodeRec => { r with up := u }) hr
theorem down_eq (hr : h[p]? = some r) (l : List Nat) : List.set h p ⟨r.label, r.value, r.up, l⟩ = h.setDown p l :=
  set_modify (fun r : NodeRec => { r with down := l }) hr
theorem addDown_eq (hr : h[p]? = some r) (q : Nat) : List.set h p ⟨r.label, r.value, r.up, r.down ++ [q]⟩ = h.addDown p q :=
  set_modify (fun r : NodeRec => { r with down := r.down ++ [q] }) hr

theorem setLabel_at (hr : h[p]? = some r) (l : Bytes) : (h.setLabel p l)[p]? = some ⟨l, r.value, r.up, r.down⟩ := by simp [NHeap.setLabel, hr]
theorem setUp_at (hr : h[p]? = some r) (l : Option Nat) : (h.setUp p l)[p]? = some ⟨r.label, r.value, l, r.down⟩ := by simp [NHeap.setUp, hr]
theorem setLabel_ne {q : Nat} (hq : p ≠ q) (l : Bytes) : (h.setLabel p l)[q]? = h[q]? := by
  rw [NHeap.setLabel, List.getElem?_modify]; simp [hq]
theorem setUp_ne {q : Nat} (hq : p ≠ q) (l : Option Nat) : (h.setUp p l)[q]? = h[q]? := by
  rw [NHeap.setUp, List.getElem?_modify]; simp [hq]
theorem setValue_ne {q : Nat} (hq : p ≠ q) (l : Bytes) : (h.setValue p l)[q]? = h[q]? := by
  rw [NHeap.setValue, List.getElem?_modify]; simp [hq]

end

section
variable {fl : FloatLib UInt64} {fuel d : Nat} {h : NHeap}

theorem opens_cons {newVal : Bytes} (h2 : 2 ≤ newVal.length) : ∃ c cs, newVal = c :: cs ∧ opensContainer newVal = ((c == 91) || (c == 123)) := by
  cases newVal with
  | nil => simp at h2
  | cons c cs => exact ⟨c, cs, rfl, by simp only [opensContainer, ge_iff_le, h2, decide_true, Bool.true_and, List.head?_cons]; rfl⟩

theorem opens_short {newVal : Bytes} (h2 : ¬ 2 ≤ newVal.length) : opensContainer newVal = false := by
  simp [opensContainer]; intro h; omega

theorem opens_test {c : UInt8} (h : true = (c == 91 || c == 123)) : ((c == 91) = true ∧ (c == 123) = false) ∨ ((c == 91) = false ∧ (c == 123) = true) := by
  cases h9 : c == 91
  · rw [h9] at h; exact .inr ⟨rfl, by simpa using h.symm⟩
  · refine .inl ⟨rfl, ?_⟩
    rw [eq_of_beq h9]; rfl

theorem mut_json {m : Mut} : (∃ j e, m = .done j e ∧ m.json? = some j) ∨ (m = .panic ∧ m.json? = none) := by
  cases m with
  | panic => exact .inr ⟨rfl, rfl⟩
  | done j e => exact .inl ⟨j, e, rfl, rfl⟩

theorem mutVals_done (j : Bytes) (e : Option Err) : mutVals (.done j e) = .ok [.bytes j, errVal e] := by cases e <;> rfl

/-- `Parser.Set` -/
theorem run_Parser_Set (hh : Closed h) (p : ParserP) (hp : p.core < h.length) (newVal : Bytes) (path : List Bytes) (hf1 : need p.json path < fuel)
    (hf2 : newVal.length < fuel) (hf3 : ∀ j, (Jin.Set p.json newVal path).json? = some j → need j path < fuel) :
    (jin fl).fn fuel (d + 4) (go% Parser.Set) true [.heap h, .ptr p.core, .bytes p.json, .bytes newVal, .strs path] = presVals (p.Set h newVal path) := by
  rw [fn_run (g := Src.Parser.Set) rfl]
  cases h0 : path.length == 0
  rotate_left
  · run_go [Func.run, Src.Parser.Set, bindParams, h0, ParserP.Set, presVals, errVal]
  have hw := run_nodeWalk (fl := fl) (fuel := fuel) (d := d + 1) (sp := false) hh hp path
  have hs := run_Set (fl := fl) (d := d) hf1 newVal
  cases hx : h.walk p.core path with
  | panic => rw [hx] at hw; run_go [Func.run, Src.Parser.Set, bindParams, h0, ParserP.Set, presVals, hw, hx]
  | err e => rw [hx] at hw; run_go [Func.run, Src.Parser.Set, bindParams, h0, ParserP.Set, presVals, errVal, hw, hx]
  | ok curr =>
    rw [hx] at hw
    have hcl := walk_lt hh path hp hx
    cases ho : opensContainer newVal
    · obtain ⟨r, hr⟩ := node_at hcl
      have hr' := value_eq hr newVal
      by_cases h2 : 2 ≤ newVal.length
      · obtain ⟨c, cs, hv, hoc⟩ := opens_cons h2
        rw [ho] at hoc
        obtain ⟨h91, h123⟩ := Bool.or_eq_false_iff.1 hoc.symm
        have hd2 : decide ((newVal.length : Int) ≥ 2) = true := by simp; omega
        have he : newVal[0]? = some c := by rw [hv]; rfl
        rcases mut_json (m := Jin.Set p.json newVal path) with ⟨j, e, hj, hjj⟩ | ⟨hj, hjj⟩
        · rw [hj, mutVals_done] at hs
          have H := set2_for (fl := fl) (d := d) (hf3 j hjj) p newVal curr curr (hh.setValue curr newVal) (by simpa using hcl)
          rcases hc : climb j (prefixes path 1 (path.length - 1)) curr (h.setValue curr newVal) with _ | ⟨h', _ | x⟩
          · rw [hc] at H
            run_go [Func.run, Src.Parser.Set, bindParams, h0, ParserP.Set, presVals, hw, hx, ho, hd2, he, h91, h123, node_ok hr, hr', hs, hjj, H, finishP, hc]
          · rw [hc] at H
            obtain ⟨cu', H⟩ := H
            run_go [Func.run, Src.Parser.Set, bindParams, h0, ParserP.Set, presVals, hw, hx, ho, hd2, he, h91, h123, node_ok hr, hr', hs, hjj, H, finishP, hc, errVal]
          · rw [hc] at H
            run_go [Func.run, Src.Parser.Set, bindParams, h0, ParserP.Set, presVals, hw, hx, ho, hd2, he, h91, h123, node_ok hr, hr', hs, hjj, H, finishP, hc, errVal]
        · rw [hj] at hs
          run_go [Func.run, Src.Parser.Set, bindParams, h0, ParserP.Set, presVals, hw, hx, ho, hd2, he, h91, h123, node_ok hr, hr', hs, hjj, mutVals]
      · have hd2 : decide ((newVal.length : Int) ≥ 2) = false := by simp; omega
        rcases mut_json (m := Jin.Set p.json newVal path) with ⟨j, e, hj, hjj⟩ | ⟨hj, hjj⟩
        · rw [hj, mutVals_done] at hs
          have H := set2_for (fl := fl) (d := d) (hf3 j hjj) p newVal curr curr (hh.setValue curr newVal) (by simpa using hcl)
          rcases hc : climb j (prefixes path 1 (path.length - 1)) curr (h.setValue curr newVal) with _ | ⟨h', _ | x⟩
          · rw [hc] at H
            run_go [Func.run, Src.Parser.Set, bindParams, h0, ParserP.Set, presVals, hw, hx, ho, hd2, node_ok hr, hr', hs, hjj, H, finishP, hc]
          · rw [hc] at H
            obtain ⟨cu', H⟩ := H
            run_go [Func.run, Src.Parser.Set, bindParams, h0, ParserP.Set, presVals, hw, hx, ho, hd2, node_ok hr, hr', hs, hjj, H, finishP, hc, errVal]
          · rw [hc] at H
            run_go [Func.run, Src.Parser.Set, bindParams, h0, ParserP.Set, presVals, hw, hx, ho, hd2, node_ok hr, hr', hs, hjj, H, finishP, hc, errVal]
        · rw [hj] at hs
          run_go [Func.run, Src.Parser.Set, bindParams, h0, ParserP.Set, presVals, hw, hx, ho, hd2, node_ok hr, hr', hs, hjj, mutVals]
    · have h2 : 2 ≤ newVal.length := Decidable.byContradiction fun h2 => by rw [opens_short h2] at ho; cases ho
      obtain ⟨c, cs, hv, hoc⟩ := opens_cons h2
      rw [ho] at hoc
      have hd2 : decide ((newVal.length : Int) ≥ 2) = true := by simp; omega
      have he : newVal[0]? = some c := by rw [hv]; rfl
      have hn : Closed (h ++ [⟨[], [], none, []⟩]) := hh.new (by simp) (by simp)
      obtain ⟨e1, hcl1⟩ := run_pCore (fl := fl) (fuel := fuel) (d := d + 1) hf2 false (h ++ [⟨[], [], none, []⟩]) h.length hn (by simp)
      have hnew := run_createNode (fl := fl) (fuel := fuel) (d := d + 2) (sp := false) (h := h) none
      simp only [createNode, NHeap.new, ptrVal_none] at hnew
      have ht : ((c == 91) = true ∧ (c == 123) = false) ∨ ((c == 91) = false ∧ (c == 123) = true) := opens_test hoc
      cases hpc : pCoreP newVal h.length (h ++ [⟨[], [], none, []⟩]) with
      | none =>
        rw [hpc] at e1
        rcases ht with ⟨h91, h123⟩ | ⟨h91, h123⟩ <;>
          run_go [Func.run, Src.Parser.Set, bindParams, h0, ParserP.Set, presVals, hw, hx, ho, hd2, he, h91, h123, hnew, createNode, NHeap.new, e1, hpc]
      | some h1 =>
        rw [hpc] at e1
        obtain ⟨c1, c2⟩ := hcl1 h1 hpc
        rw [List.length_append, List.length_singleton] at c2
        obtain ⟨r, hr⟩ := node_at (h := h1) (p := curr) (by omega)
        obtain ⟨rq, hrq⟩ := node_at (h := h1) (p := h.length) (by omega)
        have l1 := label_eq hrq r.label
        have a1 : (h1.setLabel h.length r.label)[curr]? = some r := by rw [setLabel_ne (by omega), hr]
        have a2 := setLabel_at hrq r.label
        have l2 := up_eq a2 r.up
        have b1 : ((h1.setLabel h.length r.label).setUp h.length r.up)[curr]? = some r := by rw [setUp_ne (by omega), a1]
        have b2 : Closed ((h1.setLabel h.length r.label).setUp h.length r.up) :=
          (c1.setLabel _ _).setUp _ fun x hx => by simpa using (c1 curr r hr).1 x hx
        have gi := run_getIndex (fl := fl) (fuel := fuel) (d := d + 2) (sp := false) (n := curr) b2 (by simp; omega)
        cases hup : r.up with
        | none =>
          rw [hup] at l2 gi b1
          have hgi : ((h1.setLabel h.length r.label).setUp h.length none).getIndex curr = none := by simp [NHeap.getIndex, b1, hup]
          rw [hgi] at gi
          rcases ht with ⟨h91, h123⟩ | ⟨h91, h123⟩ <;>
            run_go [Func.run, Src.Parser.Set, bindParams, h0, ParserP.Set, presVals, hw, hx, ho, hd2, he, h91, h123, hnew, createNode, NHeap.new, e1, hpc, node_ok hr, node_ok hrq, hr, l1, node_ok a1, node_ok a2, hup, l2, gi, hgi]
        | some up =>
          rw [hup] at l2 gi b1 b2
          obtain ⟨u, hu⟩ := node_at (h := (h1.setLabel h.length r.label).setUp h.length (some up)) (p := up) (by simpa using (c1 curr r hr).1 up hup)
          cases hgi : ((h1.setLabel h.length r.label).setUp h.length (some up)).getIndex curr with
          | none =>
            rw [hgi] at gi
            rcases ht with ⟨h91, h123⟩ | ⟨h91, h123⟩ <;>
              run_go [Func.run, Src.Parser.Set, bindParams, h0, ParserP.Set, presVals, hw, hx, ho, hd2, he, h91, h123, hnew, createNode, NHeap.new, e1, hpc, node_ok hr, node_ok hrq, hr, l1, node_ok a1, node_ok a2, hup, l2, gi, hgi]
          | some ix =>
            rw [hgi] at gi
            by_cases hix : 0 ≤ ix ∧ ix < u.down.length
            · have hput : put u.down ix h.length = .ok (u.down.set ix.toNat h.length) := by rw [put, if_pos hix]
              have l3 := down_eq hu (u.down.set ix.toNat h.length)
              have b3 : Closed (((h1.setLabel h.length r.label).setUp h.length (some up)).setDown up (u.down.set ix.toNat h.length)) :=
                b2.setDown _ fun x hx => by
                  rcases List.mem_or_eq_of_mem_set hx with hx | hx
                  · exact (b2 up u hu).2 x hx
                  · subst hx; simp; omega
              obtain ⟨x, hx4⟩ := node_at (h := ((h1.setLabel h.length r.label).setUp h.length (some up)).setDown up (u.down.set ix.toNat h.length)) (p := h.length) (by simp; omega)
              have l4 := value_eq hx4 newVal
              rcases mut_json (m := Jin.Set p.json newVal path) with ⟨j, e, hj, hjj⟩ | ⟨hj, hjj⟩
              · rw [hj, mutVals_done] at hs
                have H := set1_for (fl := fl) (d := d) (hf3 j hjj) p newVal curr h.length ix h.length (b3.setValue h.length newVal) (by simp; omega)
                rcases hc : climb j (prefixes path 1 (path.length - 1)) h.length ((((h1.setLabel h.length r.label).setUp h.length (some up)).setDown up (u.down.set ix.toNat h.length)).setValue h.length newVal) with _ | ⟨h', _ | x⟩
                · rw [hc] at H
                  rcases ht with ⟨h91, h123⟩ | ⟨h91, h123⟩ <;>
                    run_go [Func.run, Src.Parser.Set, bindParams, h0, ParserP.Set, presVals, hw, hx, ho, hd2, he, h91, h123, hnew, createNode, NHeap.new, e1, hpc, node_ok hr, node_ok hrq, hr, l1, node_ok a1, node_ok a2, hup, l2, gi, hgi, node_ok b1, node_ok hu, hu, hput, l3, node_ok hx4, l4, hix, hs, hjj, H, finishP, hc]
                · rw [hc] at H
                  obtain ⟨cu', H⟩ := H
                  rcases ht with ⟨h91, h123⟩ | ⟨h91, h123⟩ <;>
                    run_go [Func.run, Src.Parser.Set, bindParams, h0, ParserP.Set, presVals, hw, hx, ho, hd2, he, h91, h123, hnew, createNode, NHeap.new, e1, hpc, node_ok hr, node_ok hrq, hr, l1, node_ok a1, node_ok a2, hup, l2, gi, hgi, node_ok b1, node_ok hu, hu, hput, l3, node_ok hx4, l4, hix, hs, hjj, H, finishP, hc, errVal]
                · rw [hc] at H
                  rcases ht with ⟨h91, h123⟩ | ⟨h91, h123⟩ <;>
                    run_go [Func.run, Src.Parser.Set, bindParams, h0, ParserP.Set, presVals, hw, hx, ho, hd2, he, h91, h123, hnew, createNode, NHeap.new, e1, hpc, node_ok hr, node_ok hrq, hr, l1, node_ok a1, node_ok a2, hup, l2, gi, hgi, node_ok b1, node_ok hu, hu, hput, l3, node_ok hx4, l4, hix, hs, hjj, H, finishP, hc, errVal]
              · rw [hj] at hs
                rcases ht with ⟨h91, h123⟩ | ⟨h91, h123⟩ <;>
                  run_go [Func.run, Src.Parser.Set, bindParams, h0, ParserP.Set, presVals, hw, hx, ho, hd2, he, h91, h123, hnew, createNode, NHeap.new, e1, hpc, node_ok hr, node_ok hrq, hr, l1, node_ok a1, node_ok a2, hup, l2, gi, hgi, node_ok b1, node_ok hu, hu, hput, l3, node_ok hx4, l4, hix, hs, hjj, mutVals]
            · have hput : put u.down ix h.length = .panic := by rw [put, if_neg hix]
              rcases ht with ⟨h91, h123⟩ | ⟨h91, h123⟩ <;>
                run_go [Func.run, Src.Parser.Set, bindParams, h0, ParserP.Set, presVals, hw, hx, ho, hd2, he, h91, h123, hnew, createNode, NHeap.new, e1, hpc, node_ok hr, node_ok hrq, hr, l1, node_ok a1, node_ok a2, hup, l2, gi, hgi, node_ok b1, node_ok hu, hu, hput, hix]

/-! ### SetKey -/

/-- The loops that look for a label among children. -/
theorem range_label {body : Stmt} {key : Bytes} {env : Env} {vs : List Val}
    (he : ∀ q x, h[q]? = some x → exec (ctx fl fuel d) fuel body ⟨(), (go% d, .ptr q) :: (0, .nil) :: env⟩ =
      if x.label == key then .ret () vs else .norm ⟨(), (go% d, .ptr q) :: (0, .nil) :: env⟩) :
    ∀ (down : List Nat) (f : Nat → Val), (∀ q ∈ down, q < h.length) →
    rangeN 0 (go% d) (fun s => exec (ctx fl fuel d) fuel body s) (down.mapIdx fun i c => (f i, .ptr c)) ⟨(), env⟩ =
    if (h.child? key down).isSome then .ret () vs else .norm ⟨(), env⟩ := by
  intro down
  induction down with
  | nil => intro f _; rfl
  | cons q down ih =>
    intro f hd
    obtain ⟨x, hx⟩ := node_at (hd q (List.mem_cons_self ..))
    have ih := ih (fun i => f (i + 1)) fun q hq => hd q (List.mem_cons_of_mem _ hq)
    have e := he q x hx
    rw [List.mapIdx_cons, rangeN]
    cases hl : x.label == key
    · rw [hl] at e
      have hc : h.child? key (q :: down) = h.child? key down := by simp [NHeap.child?, hx, hl]
      rw [hc]
      cases hs : (h.child? key down).isSome <;> rw [hs] at ih <;> run_go [Env.new, e, ih] 
      all_goals simp [St.leave, Env.leave]
    · rw [hl] at e
      have hc : (h.child? key (q :: down)).isSome = true := by simp [NHeap.child?, hx, hl]
      rw [hc]
      run_go [Env.new, e]

theorem setKey_range (p : ParserP) (newKey : Bytes) (path : List Bytes) (c0 : Nat) (down : List Nat) (f : Nat → Val) (hd : ∀ q ∈ down, q < h.length) :
    rangeN 0 (go% d) (fun s => exec (ctx fl fuel (d + 3)) fuel Src.Parser.SetKey.body1 s) (down.mapIdx fun i c => (f i, .ptr c)) ⟨(), setKeyEnv p p.json h c0 newKey path c0⟩ =
    if (h.child? newKey down).isSome then .ret () [.heap h, .ptr p.core, .bytes p.json, .err (.keyAlreadyExist newKey)]
    else .norm ⟨(), setKeyEnv p p.json h c0 newKey path c0⟩ :=
  range_label (fun q x hx => by cases e : x.label == newKey <;> run_go [Src.Parser.SetKey.body1, node_ok hx, e]) down f hd

/-- `Parser.SetKey` -/
theorem run_Parser_SetKey (hh : Closed h) (p : ParserP) (hp : p.core < h.length) (newKey : Bytes) (path : List Bytes) (hf1 : need p.json path < fuel)
    (hf2 : need p.json (path.dropLast ++ [newKey]) < fuel) (hf3 : ∀ j, (Jin.SetKey p.json newKey path).json? = some j → need j path < fuel) :
    (jin fl).fn fuel (d + 4) (go% Parser.SetKey) true [.heap h, .ptr p.core, .bytes p.json, .bytes newKey, .strs path] = presVals (p.SetKey h newKey path) := by
  rw [fn_run (g := Src.Parser.SetKey) rfl]
  cases h0 : path.length == 0
  rotate_left
  · run_go [Func.run, Src.Parser.SetKey, bindParams, h0, ParserP.SetKey, presVals, errVal]
  cases h1 : newKey.length == 0
  rotate_left
  · run_go [Func.run, Src.Parser.SetKey, bindParams, h0, h1, ParserP.SetKey, presVals, errVal]
  have hw := run_nodeWalk (fl := fl) (fuel := fuel) (d := d + 1) (sp := false) hh hp path
  have hs := run_SetKey (fl := fl) (d := d) hf1 newKey hf2
  cases hx : h.walk p.core path with
  | panic => rw [hx] at hw; run_go [Func.run, Src.Parser.SetKey, bindParams, h0, h1, ParserP.SetKey, presVals, hw, hx]
  | err e => rw [hx] at hw; run_go [Func.run, Src.Parser.SetKey, bindParams, h0, h1, ParserP.SetKey, presVals, errVal, hw, hx]
  | ok curr =>
    rw [hx] at hw
    have hcl := walk_lt hh path hp hx
    obtain ⟨r, hr⟩ := node_at hcl
    cases hup : r.up with
    | none => run_go [Func.run, Src.Parser.SetKey, Src.Parser.SetKey.for1, bindParams, h0, h1, ParserP.SetKey, presVals, hw, hx, node_ok hr, hr, hup, Option.bind_some, Option.bind_none]
    | some up =>
      obtain ⟨u, hu⟩ := node_at ((hh curr r hr).1 up hup)
      have e := setKey_range (fl := fl) (fuel := fuel) (d := d) p newKey path curr u.down (fun i => .int i) (hh up u hu).2
      cases hc : (h.child? newKey u.down).isSome
      rotate_left
      · rw [hc] at e
        run_go [Func.run, Src.Parser.SetKey, Src.Parser.SetKey.for1, bindParams, h0, h1, ParserP.SetKey, presVals, hw, hx, node_ok hr, hr, hup, Option.bind_some, node_ok hu, hu, e, hc, errVal]
      · rw [hc] at e
        have l1 := label_eq hr newKey
        rw [hup] at l1
        rcases mut_json (m := Jin.SetKey p.json newKey path) with ⟨j, er, hj, hjj⟩ | ⟨hj, hjj⟩
        · rw [hj, mutVals_done] at hs
          have H := setKey_for (fl := fl) (d := d) (hf3 j hjj) p newKey curr curr (hh.setLabel curr newKey) (by simpa using hcl)
          rcases hq : climbQuiet j (prefixes path 1 (path.length - 1)) curr (h.setLabel curr newKey) with _ | h'
          · rw [hq] at H
            run_go [Func.run, Src.Parser.SetKey, Src.Parser.SetKey.for1, bindParams, h0, h1, ParserP.SetKey, presVals, hw, hx, node_ok hr, hr, hup, Option.bind_some, node_ok hu, hu, e, hc, l1, hs, hjj, H, hq]
          · rw [hq] at H
            obtain ⟨cu', H⟩ := H
            run_go [Func.run, Src.Parser.SetKey, Src.Parser.SetKey.for1, bindParams, h0, h1, ParserP.SetKey, presVals, hw, hx, node_ok hr, hr, hup, Option.bind_some, node_ok hu, hu, e, hc, l1, hs, hjj, H, hq, errVal]
        · rw [hj] at hs
          run_go [Func.run, Src.Parser.SetKey, Src.Parser.SetKey.for1, bindParams, h0, h1, ParserP.SetKey, presVals, hw, hx, node_ok hr, hr, hup, Option.bind_some, node_ok hu, hu, e, hc, l1, hs, hjj, mutVals]

/-! ### Delete -/

theorem deAttach_closed {n : Nat} {h' : NHeap} (hh : Closed h) (e : h.deAttach n = some h') : Closed h' ∧ h'.length = h.length := by
  simp only [NHeap.deAttach] at e
  split at e <;> try cases e
  split at e <;> try cases e
  split at e <;> try cases e
  split at e <;> cases e
  rename_i u hu _
  refine ⟨hh.setDown _ fun q hq => ?_, by simp⟩
  exact (hh _ _ hu).2 q (List.mem_filter.1 hq).1

/-- `Parser.Delete` -/
theorem run_Parser_Delete (hh : Closed h) (p : ParserP) (hp : p.core < h.length) (path : List Bytes) (hf1 : need p.json path < fuel)
    (hf3 : ∀ j, (Jin.Delete p.json path).json? = some j → need j path < fuel) :
    (jin fl).fn fuel (d + 4) (go% Parser.Delete) true [.heap h, .ptr p.core, .bytes p.json, .strs path] = presVals (p.Delete h path) := by
  rw [fn_run (g := Src.Parser.Delete) rfl]
  cases h0 : path.length == 0
  rotate_left
  · run_go [Func.run, Src.Parser.Delete, bindParams, h0, ParserP.Delete, presVals, errVal]
  have hw := run_nodeWalk (fl := fl) (fuel := fuel) (d := d + 1) (sp := false) hh hp path
  have hs := run_Delete (fl := fl) (d := d) hf1
  cases hx : h.walk p.core path with
  | panic => rw [hx] at hw; run_go [Func.run, Src.Parser.Delete, bindParams, h0, ParserP.Delete, presVals, hw, hx]
  | err e => rw [hx] at hw; run_go [Func.run, Src.Parser.Delete, bindParams, h0, ParserP.Delete, presVals, errVal, hw, hx]
  | ok curr =>
    rw [hx] at hw
    have hcl := walk_lt hh path hp hx
    have hd := run_deAttach (fl := fl) (fuel := fuel) (d := d + 2) (sp := false) hh hcl
    cases hda : h.deAttach curr with
    | none => rw [hda] at hd; run_go [Func.run, Src.Parser.Delete, bindParams, h0, ParserP.Delete, presVals, hw, hx, hd, hda]
    | some h1 =>
      rw [hda] at hd
      obtain ⟨c1, c2⟩ := deAttach_closed hh hda
      cases hj : Jin.Delete p.json path with
      | panic => rw [hj] at hs; run_go [Func.run, Src.Parser.Delete, bindParams, h0, ParserP.Delete, presVals, hw, hx, hd, hda, hs, hj, mutVals]
      | done j e =>
        rw [hj] at hs
        cases e with
        | some e => run_go [Func.run, Src.Parser.Delete, bindParams, h0, ParserP.Delete, presVals, hw, hx, hd, hda, hs, hj, mutVals, errVal]
        | none =>
          have H := delete_for (fl := fl) (d := d) (hf3 j (by rw [hj]; rfl)) p curr curr c1 (by omega)
          rcases hc : climb j (prefixes path 1 (path.length - 1)) curr h1 with _ | ⟨h', _ | x⟩
          · rw [hc] at H
            run_go [Func.run, Src.Parser.Delete, bindParams, h0, ParserP.Delete, presVals, hw, hx, hd, hda, hs, hj, mutVals, H, finishP, hc]
          · rw [hc] at H
            obtain ⟨cu', H⟩ := H
            run_go [Func.run, Src.Parser.Delete, bindParams, h0, ParserP.Delete, presVals, hw, hx, hd, hda, hs, hj, mutVals, H, finishP, hc, errVal]
          · rw [hc] at H
            run_go [Func.run, Src.Parser.Delete, bindParams, h0, ParserP.Delete, presVals, hw, hx, hd, hda, hs, hj, mutVals, H, finishP, hc, errVal]

end

end Jin.Go
