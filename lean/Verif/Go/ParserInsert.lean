import Verif.Go.ParserAdd
/-!
# Go.ParserInsert — `Parser.Insert` in the text
-/

namespace Jin.Go

section
variable {fl : FloatLib UInt64} {fuel d : Nat} {h : NHeap}

theorem bare_false (h : NHeap) (v : Bytes) : bareNodeP h false v = some (h ++ [⟨[], [], none, []⟩], h.length) := rfl

theorem bare_true (h : NHeap) (v : Bytes) : bareNodeP h true v = (pCoreP v h.length (h ++ [⟨[], [], none, []⟩])).map fun h1 => (h1, h.length) := rfl

/-- `node.insert` keeps the number of nodes and their children. -/
theorem insert_closed {n up : Nat} {index : Int} {h' : NHeap} (hh : Closed h) (hu : up < h.length) (e : h.insert n up index = .ok h') :
    Closed h' ∧ h'.length = h.length ∧ ∀ x : Nat, (h'[x]?).map NodeRec.down = (h[x]?).map NodeRec.down := by
  unfold NHeap.insert at e
  obtain ⟨u, hr⟩ := node_at hu
  rw [hr] at e
  simp only at e
  split at e <;> try cases e
  split at e <;> try cases e
  split at e <;> cases e
  refine ⟨((relabel_closed _ _ _ _ hh).setLabel _ _).setUp _ fun x hx => ?_, by simp [relabel_length], fun x => ?_⟩
  · cases hx; simpa [relabel_length] using hu
  · rw [← relabel_down index.toNat u.down 0 h x]
    rw [NHeap.setUp, NHeap.setLabel, List.getElem?_modify, List.getElem?_modify]
    cases (relabelP index.toNat 0 u.down h)[x]? <;> simp
    split <;> rfl

theorem down_bound {h h' : NHeap} {curr n : Nat} (e : ∀ x : Nat, (h'[x]?).map NodeRec.down = (h[x]?).map NodeRec.down) (hb : ∀ u, h[curr]? = some u → u.down.length + 1 < n) :
    ∀ u, h'[curr]? = some u → u.down.length + 1 < n := by
  intro u hu
  have := e curr
  rw [hu] at this
  cases hx : h[curr]? with
  | none => rw [hx] at this; cases this
  | some v =>
    rw [hx] at this
    have hd : u.down = v.down := by simpa using this
    rw [hd]; exact hb v hx

/-- `curr.down = append(curr.down, newNode); newNode.up = curr`. -/
theorem down_steps {h1 : NHeap} {q curr : Nat} (hc : Closed h1) (hq : q < h1.length) (hcl : curr < h1.length) :
    ∃ r rq, node h1 curr = .ok r ∧ List.set h1 curr ⟨r.label, r.value, r.up, r.down ++ [q]⟩ = h1.addDown curr q ∧
      node (h1.addDown curr q) q = .ok rq ∧ List.set (h1.addDown curr q) q ⟨rq.label, rq.value, some curr, rq.down⟩ = h1.attach curr q ∧
      Closed (h1.attach curr q) ∧ (h1.attach curr q).length = h1.length := by
  obtain ⟨r, hr⟩ := node_at hcl
  obtain ⟨rq, hrq⟩ := node_at (h := h1.addDown curr q) (p := q) (by simpa using hq)
  refine ⟨r, rq, node_ok hr, addDown_eq hr q, node_ok hrq, up_eq hrq (some curr), ?_, by simp [NHeap.attach]⟩
  refine Closed.setUp (Closed.addDown hc _ hq) _ fun x hx => ?_
  cases hx; simpa using hcl

theorem up_steps {h1 : NHeap} {q curr : Nat} (hc : Closed h1) (hq : q < h1.length) (hcl : curr < h1.length) :
    ∃ rq, node h1 q = .ok rq ∧ List.set h1 q ⟨rq.label, rq.value, some curr, rq.down⟩ = h1.setUp q (some curr) ∧
      Closed (h1.setUp q (some curr)) ∧ (h1.setUp q (some curr)).length = h1.length := by
  obtain ⟨rq, hrq⟩ := node_at hq
  refine ⟨rq, node_ok hrq, up_eq hrq (some curr), hc.setUp _ fun x hx => ?_, by simp⟩
  cases hx; exact hcl

/-- `newNode.value = v; curr.down = append(curr.down, newNode)`. -/
theorem value_steps {h1 : NHeap} {q curr : Nat} (hc : Closed h1) (hq : q < h1.length) (hcl : curr < h1.length) (hne : q ≠ curr) (v : Bytes)
    (hb : ∀ u, h1[curr]? = some u → u.down.length + 1 < fuel) :
    ∃ rq r, node h1 q = .ok rq ∧ List.set h1 q ⟨rq.label, v, rq.up, rq.down⟩ = h1.setValue q v ∧
      node (h1.setValue q v) curr = .ok r ∧ List.set (h1.setValue q v) curr ⟨r.label, r.value, r.up, r.down ++ [q]⟩ = (h1.setValue q v).addDown curr q ∧
      Closed ((h1.setValue q v).addDown curr q) ∧ ((h1.setValue q v).addDown curr q).length = h1.length ∧
      ∀ u, ((h1.setValue q v).addDown curr q)[curr]? = some u → u.down.length < fuel := by
  obtain ⟨rq, hrq⟩ := node_at hq
  obtain ⟨r, hr⟩ := node_at hcl
  have hr' : (h1.setValue q v)[curr]? = some r := by rw [setValue_ne hne, hr]
  refine ⟨rq, r, node_ok hrq, value_eq hrq v, node_ok hr', addDown_eq hr' q, (hc.setValue q v).addDown _ (by simpa using hq), by simp, fun u hu => ?_⟩
  have : u = { r with down := r.down ++ [q] } := by
    have := hu
    simp [NHeap.addDown, hr'] at this
    exact this.symm
  rw [this]
  have := hb r hr
  simp; omega

/-- `Parser.Insert` without a path. -/
theorem run_Parser_Insert_root (hh : Closed h) (p : ParserP) (hp : p.core < h.length) (index : Int) (newVal : Bytes) {path : List Bytes} (h0 : (path.length == 0) = true)
    (hf : ∀ r ∈ h, r.value.length < fuel) (hfd : ∀ r ∈ h, r.down.length + 1 < fuel) (hf1 : need p.json (path ++ [itoa index]) < fuel) (hf2 : newVal.length < fuel) :
    (jin fl).fn fuel (d + 4) (go% Parser.Insert) true [.heap h, .ptr p.core, .bytes p.json, .int index, .bytes newVal, .strs path] = presVals (p.Insert h index newVal path) := by
  rw [fn_run (g := Src.Parser.Insert) rfl]
  cases h1 : newVal.length == 0
  rotate_left
  · run_go [Func.run, Src.Parser.Insert, bindParams, h1, ParserP.Insert, presVals, errVal]
  have hg := run_Parser_Get (fl := fl) (d := d) hh p hp path hf
  have hs := run_Insert (fl := fl) (d := d) (need_front hf1) index newVal hf1
  have hx' := walk_root h0 h p.core
  cases hx : p.Get h path with
  | panic => rw [hx] at hg; run_go [Func.run, Src.Parser.Insert, bindParams, h0, h1, ParserP.Insert, presVals, hg, hx]
  | err e => rw [hx] at hg; run_go [Func.run, Src.Parser.Insert, bindParams, h0, h1, ParserP.Insert, presVals, hg, hx, errVal]
  | ok json =>
    rw [hx] at hg
    rcases encl_cases json 91 93 .arrayExpected with ⟨h2, he⟩ | ⟨h2, a, z, h3, h4, ⟨h5, he⟩ | ⟨h5, h6, he⟩ | ⟨h5, h6, he⟩⟩
    · run_go [Func.run, Src.Parser.Insert, bindParams, h0, h1, ParserP.Insert, presVals, hg, hx, hx', errVal, h2, he]
    · run_go [Func.run, Src.Parser.Insert, bindParams, h0, h1, ParserP.Insert, presVals, hg, hx, hx', errVal, h2, h3, h4, h5, he]
    · run_go [Func.run, Src.Parser.Insert, bindParams, h0, h1, ParserP.Insert, presVals, hg, hx, hx', errVal, h2, h3, h4, h5, h6, he]
    ·
      have c1 : Closed (h ++ [⟨[], [], none, []⟩]) := hh.new (by simp) (by simp)
      have hnew := run_createNode (fl := fl) (fuel := fuel) (d := d + 2) (sp := false) (h := h) none
      simp only [createNode, NHeap.new, ptrVal_none] at hnew
      have hlen : (h ++ [⟨[], [], none, []⟩] : NHeap).length = h.length + 1 := by simp
      have hq : h.length < (h ++ [⟨[], [], none, []⟩] : NHeap).length := by omega
      have hc0 : p.core < (h ++ [⟨[], [], none, []⟩] : NHeap).length := by omega
      have hd0 : ∀ u, (h ++ [⟨[], [], none, []⟩] : NHeap)[p.core]? = some u → u.down.length + 1 < fuel := fun u hu => hfd u (List.mem_of_getElem? (by rwa [List.getElem?_append_left hp] at hu))
      rcases vc_cases newVal with ⟨k2, kc⟩ | ⟨k2, c, k3, ⟨k4, k5, kc⟩ | ⟨ht, kc⟩⟩
      · have hb := bare_false h newVal
        have i1 := run_insert (fl := fl) (fuel := fuel) (d := d + 1) (sp := false) c1 hq hc0 index (fun u hu => Nat.lt_of_succ_lt (hd0 u hu))
        cases hi1 : NHeap.insert (h ++ [⟨[], [], none, []⟩]) h.length p.core index with
        | panic =>
          rw [hi1] at i1
          run_go [Func.run, Src.Parser.Insert, bindParams, h0, h1, ParserP.Insert, presVals, hg, hx, hx', errVal, h2, h3, h4, h5, h6, he, k2, kc, hb, hnew, i1, hi1]
        | err x =>
          rw [hi1] at i1
          run_go [Func.run, Src.Parser.Insert, bindParams, h0, h1, ParserP.Insert, presVals, hg, hx, hx', errVal, h2, h3, h4, h5, h6, he, k2, kc, hb, hnew, i1, hi1]
        | ok h2' =>
          rw [hi1] at i1
          obtain ⟨c2, s2, d2⟩ := insert_closed c1 hc0 hi1
          obtain ⟨rq, r, n1, l1, n2, l2, ca, sa, fa⟩ := value_steps (fuel := fuel) c2 (q := h.length) (curr := p.core) (by omega) (by omega) (by omega) newVal (down_bound d2 hd0)
          cases hj : Jin.Insert p.json index newVal path with
          | panic =>
            rw [hj] at hs
            run_go [Func.run, Src.Parser.Insert, bindParams, h0, h1, ParserP.Insert, presVals, hg, hx, hx', errVal, h2, h3, h4, h5, h6, he, k2, kc, hb, hnew, i1, hi1, n1, l1, n2, l2, hs, hj, mutVals]
          | done j e' =>
            rw [hj] at hs
            cases e' with
            | some x =>
              run_go [Func.run, Src.Parser.Insert, bindParams, h0, h1, ParserP.Insert, presVals, hg, hx, hx', errVal, h2, h3, h4, h5, h6, he, k2, kc, hb, hnew, i1, hi1, n1, l1, n2, l2, hs, hj, mutVals]
            | none =>
              have i2 := run_insert (fl := fl) (fuel := fuel) (d := d + 1) (sp := false) ca (n := h.length) (up := p.core) (by omega) (by omega) index fa
              cases hi2 : NHeap.insert ((h2'.setValue h.length newVal).addDown p.core h.length) h.length p.core index with
              | panic =>
                rw [hi2] at i2
                run_go [Func.run, Src.Parser.Insert, bindParams, h0, h1, ParserP.Insert, presVals, hg, hx, hx', errVal, h2, h3, h4, h5, h6, he, k2, kc, hb, hnew, i1, hi1, n1, l1, n2, l2, hs, hj, mutVals, i2, hi2]
              | err x =>
                rw [hi2] at i2
                run_go [Func.run, Src.Parser.Insert, bindParams, h0, h1, ParserP.Insert, presVals, hg, hx, hx', errVal, h2, h3, h4, h5, h6, he, k2, kc, hb, hnew, i1, hi1, n1, l1, n2, l2, hs, hj, mutVals, i2, hi2]
              | ok h3' =>
                rw [hi2] at i2
                obtain ⟨c3, s3, d3⟩ := insert_closed ca (by omega) hi2
                obtain ⟨rz, hz⟩ := node_at (h := h3') (p := h.length) (by omega)
                have n4 := node_ok hz
                have l4 := up_eq hz (some p.core)
                run_go [Func.run, Src.Parser.Insert, bindParams, h0, h1, ParserP.Insert, presVals, hg, hx, hx', errVal, h2, h3, h4, h5, h6, he, k2, kc, hb, hnew, i1, hi1, n1, l1, n2, l2, hs, hj, mutVals, i2, hi2, n4, l4]
      · have hb := bare_false h newVal
        have i1 := run_insert (fl := fl) (fuel := fuel) (d := d + 1) (sp := false) c1 hq hc0 index (fun u hu => Nat.lt_of_succ_lt (hd0 u hu))
        cases hi1 : NHeap.insert (h ++ [⟨[], [], none, []⟩]) h.length p.core index with
        | panic =>
          rw [hi1] at i1
          run_go [Func.run, Src.Parser.Insert, bindParams, h0, h1, ParserP.Insert, presVals, hg, hx, hx', errVal, h2, h3, h4, h5, h6, he, k2, kc, hb, k3, k4, k5, hnew, i1, hi1]
        | err x =>
          rw [hi1] at i1
          run_go [Func.run, Src.Parser.Insert, bindParams, h0, h1, ParserP.Insert, presVals, hg, hx, hx', errVal, h2, h3, h4, h5, h6, he, k2, kc, hb, k3, k4, k5, hnew, i1, hi1]
        | ok h2' =>
          rw [hi1] at i1
          obtain ⟨c2, s2, d2⟩ := insert_closed c1 hc0 hi1
          obtain ⟨rq, r, n1, l1, n2, l2, ca, sa, fa⟩ := value_steps (fuel := fuel) c2 (q := h.length) (curr := p.core) (by omega) (by omega) (by omega) newVal (down_bound d2 hd0)
          cases hj : Jin.Insert p.json index newVal path with
          | panic =>
            rw [hj] at hs
            run_go [Func.run, Src.Parser.Insert, bindParams, h0, h1, ParserP.Insert, presVals, hg, hx, hx', errVal, h2, h3, h4, h5, h6, he, k2, kc, hb, k3, k4, k5, hnew, i1, hi1, n1, l1, n2, l2, hs, hj, mutVals]
          | done j e' =>
            rw [hj] at hs
            cases e' with
            | some x =>
              run_go [Func.run, Src.Parser.Insert, bindParams, h0, h1, ParserP.Insert, presVals, hg, hx, hx', errVal, h2, h3, h4, h5, h6, he, k2, kc, hb, k3, k4, k5, hnew, i1, hi1, n1, l1, n2, l2, hs, hj, mutVals]
            | none =>
              have i2 := run_insert (fl := fl) (fuel := fuel) (d := d + 1) (sp := false) ca (n := h.length) (up := p.core) (by omega) (by omega) index fa
              cases hi2 : NHeap.insert ((h2'.setValue h.length newVal).addDown p.core h.length) h.length p.core index with
              | panic =>
                rw [hi2] at i2
                run_go [Func.run, Src.Parser.Insert, bindParams, h0, h1, ParserP.Insert, presVals, hg, hx, hx', errVal, h2, h3, h4, h5, h6, he, k2, kc, hb, k3, k4, k5, hnew, i1, hi1, n1, l1, n2, l2, hs, hj, mutVals, i2, hi2]
              | err x =>
                rw [hi2] at i2
                run_go [Func.run, Src.Parser.Insert, bindParams, h0, h1, ParserP.Insert, presVals, hg, hx, hx', errVal, h2, h3, h4, h5, h6, he, k2, kc, hb, k3, k4, k5, hnew, i1, hi1, n1, l1, n2, l2, hs, hj, mutVals, i2, hi2]
              | ok h3' =>
                rw [hi2] at i2
                obtain ⟨c3, s3, d3⟩ := insert_closed ca (by omega) hi2
                obtain ⟨rz, hz⟩ := node_at (h := h3') (p := h.length) (by omega)
                have n4 := node_ok hz
                have l4 := up_eq hz (some p.core)
                run_go [Func.run, Src.Parser.Insert, bindParams, h0, h1, ParserP.Insert, presVals, hg, hx, hx', errVal, h2, h3, h4, h5, h6, he, k2, kc, hb, k3, k4, k5, hnew, i1, hi1, n1, l1, n2, l2, hs, hj, mutVals, i2, hi2, n4, l4]
      ·
        obtain ⟨e1, hcl1⟩ := run_pCore (fl := fl) (fuel := fuel) (d := d + 1) hf2 false (h ++ [⟨[], [], none, []⟩]) h.length c1 hq
        cases hpc : pCoreP newVal h.length (h ++ [⟨[], [], none, []⟩]) with
        | none =>
          have hb : bareNodeP h true newVal = none := by rw [bare_true, hpc]; rfl
          rw [hpc] at e1
          rcases ht with ⟨k4, k5⟩ | ⟨k4, k5⟩ <;>
            run_go [Func.run, Src.Parser.Insert, bindParams, h0, h1, ParserP.Insert, presVals, hg, hx, hx', errVal, h2, h3, h4, h5, h6, he, k2, kc, hb, k3, k4, k5, hnew, e1]
        | some h1' =>
          have hb : bareNodeP h true newVal = some (h1', h.length) := by rw [bare_true, hpc]; rfl
          rw [hpc] at e1
          obtain ⟨c1, c2⟩ := hcl1 h1' hpc
          rw [hlen] at c2
          have hq : h.length < h1'.length := by omega
          have hc0 : p.core < h1'.length := by omega
          have hd0 : ∀ u, h1'[p.core]? = some u → u.down.length + 1 < fuel := fun u hu => hfd u (List.mem_of_getElem? ((pCore_frame hpc hp) ▸ hu))
          have i1 := run_insert (fl := fl) (fuel := fuel) (d := d + 1) (sp := false) c1 hq hc0 index (fun u hu => Nat.lt_of_succ_lt (hd0 u hu))
          cases hi1 : NHeap.insert h1' h.length p.core index with
          | panic =>
            rw [hi1] at i1
            rcases ht with ⟨k4, k5⟩ | ⟨k4, k5⟩ <;>
              run_go [Func.run, Src.Parser.Insert, bindParams, h0, h1, ParserP.Insert, presVals, hg, hx, hx', errVal, h2, h3, h4, h5, h6, he, k2, kc, hb, k3, k4, k5, hnew, e1, i1, hi1]
          | err x =>
            rw [hi1] at i1
            rcases ht with ⟨k4, k5⟩ | ⟨k4, k5⟩ <;>
              run_go [Func.run, Src.Parser.Insert, bindParams, h0, h1, ParserP.Insert, presVals, hg, hx, hx', errVal, h2, h3, h4, h5, h6, he, k2, kc, hb, k3, k4, k5, hnew, e1, i1, hi1]
          | ok h2' =>
            rw [hi1] at i1
            obtain ⟨c2, s2, d2⟩ := insert_closed c1 hc0 hi1
            cases hj : Jin.Insert p.json index newVal path with
            | panic =>
              rw [hj] at hs
              rcases ht with ⟨k4, k5⟩ | ⟨k4, k5⟩ <;>
                run_go [Func.run, Src.Parser.Insert, bindParams, h0, h1, ParserP.Insert, presVals, hg, hx, hx', errVal, h2, h3, h4, h5, h6, he, k2, kc, hb, k3, k4, k5, hnew, e1, i1, hi1, hs, hj, mutVals]
            | done j e' =>
              rw [hj] at hs
              cases e' with
              | some x =>
                rcases ht with ⟨k4, k5⟩ | ⟨k4, k5⟩ <;>
                  run_go [Func.run, Src.Parser.Insert, bindParams, h0, h1, ParserP.Insert, presVals, hg, hx, hx', errVal, h2, h3, h4, h5, h6, he, k2, kc, hb, k3, k4, k5, hnew, e1, i1, hi1, hs, hj, mutVals]
              | none =>
                have i2 := run_insert (fl := fl) (fuel := fuel) (d := d + 1) (sp := false) c2 (n := h.length) (up := p.core) (by omega) (by omega) index (fun u hu => Nat.lt_of_succ_lt (down_bound d2 hd0 u hu))
                cases hi2 : NHeap.insert h2' h.length p.core index with
                | panic =>
                  rw [hi2] at i2
                  rcases ht with ⟨k4, k5⟩ | ⟨k4, k5⟩ <;>
                    run_go [Func.run, Src.Parser.Insert, bindParams, h0, h1, ParserP.Insert, presVals, hg, hx, hx', errVal, h2, h3, h4, h5, h6, he, k2, kc, hb, k3, k4, k5, hnew, e1, i1, hi1, hs, hj, mutVals, i2, hi2]
                | err x =>
                  rw [hi2] at i2
                  rcases ht with ⟨k4, k5⟩ | ⟨k4, k5⟩ <;>
                    run_go [Func.run, Src.Parser.Insert, bindParams, h0, h1, ParserP.Insert, presVals, hg, hx, hx', errVal, h2, h3, h4, h5, h6, he, k2, kc, hb, k3, k4, k5, hnew, e1, i1, hi1, hs, hj, mutVals, i2, hi2]
                | ok h3' =>
                  rw [hi2] at i2
                  obtain ⟨c3, s3, d3⟩ := insert_closed c2 (by omega) hi2
                  obtain ⟨r, rq, n1, l1, n2, l2, -, -⟩ := down_steps c3 (q := h.length) (curr := p.core) (by omega) (by omega)
                  rcases ht with ⟨k4, k5⟩ | ⟨k4, k5⟩ <;>
                    run_go [Func.run, Src.Parser.Insert, bindParams, h0, h1, ParserP.Insert, presVals, hg, hx, hx', errVal, h2, h3, h4, h5, h6, he, k2, kc, hb, k3, k4, k5, hnew, e1, i1, hi1, hs, hj, mutVals, i2, hi2, n1, l1, n2, l2]

/-- `Parser.Insert` with a path. -/
theorem run_Parser_Insert_path (hh : Closed h) (p : ParserP) (hp : p.core < h.length) (index : Int) (newVal : Bytes) {path : List Bytes} (h0 : (path.length == 0) = false)
    (hf : ∀ r ∈ h, r.value.length < fuel) (hfd : ∀ r ∈ h, r.down.length + 1 < fuel) (hf1 : need p.json (path ++ [itoa index]) < fuel) (hf2 : newVal.length < fuel)
    (hf3 : ∀ j, (Jin.Insert p.json index newVal path).json? = some j → need j path < fuel) :
    (jin fl).fn fuel (d + 4) (go% Parser.Insert) true [.heap h, .ptr p.core, .bytes p.json, .int index, .bytes newVal, .strs path] = presVals (p.Insert h index newVal path) := by
  rw [fn_run (g := Src.Parser.Insert) rfl]
  cases h1 : newVal.length == 0
  rotate_left
  · run_go [Func.run, Src.Parser.Insert, bindParams, h1, ParserP.Insert, presVals, errVal]
  have hg := run_Parser_Get (fl := fl) (d := d) hh p hp path hf
  have hw := run_nodeWalk (fl := fl) (fuel := fuel) (d := d + 1) (sp := false) hh hp path
  have hs := run_Insert (fl := fl) (d := d) (need_front hf1) index newVal hf1
  cases hx : p.Get h path with
  | panic => rw [hx] at hg; run_go [Func.run, Src.Parser.Insert, bindParams, h0, h1, ParserP.Insert, presVals, hg, hx]
  | err e => rw [hx] at hg; run_go [Func.run, Src.Parser.Insert, bindParams, h0, h1, ParserP.Insert, presVals, hg, hx, errVal]
  | ok json =>
    rw [hx] at hg
    cases hx' : h.walk p.core path with
    | panic => rw [hx'] at hw; run_go [Func.run, Src.Parser.Insert, bindParams, h0, h1, ParserP.Insert, presVals, hg, hx, hw, hx']
    | err e => rw [hx'] at hw; run_go [Func.run, Src.Parser.Insert, bindParams, h0, h1, ParserP.Insert, presVals, hg, hx, errVal, hw, hx']
    | ok curr =>
      rw [hx'] at hw
      have hcl := walk_lt hh path hp hx'
      rcases encl_cases json 91 93 .arrayExpected with ⟨h2, he⟩ | ⟨h2, a, z, h3, h4, ⟨h5, he⟩ | ⟨h5, h6, he⟩ | ⟨h5, h6, he⟩⟩
      · run_go [Func.run, Src.Parser.Insert, bindParams, h0, h1, ParserP.Insert, presVals, hg, hx, hx', errVal, h2, hw, he]
      · run_go [Func.run, Src.Parser.Insert, bindParams, h0, h1, ParserP.Insert, presVals, hg, hx, hx', errVal, h2, hw, h3, h4, h5, he]
      · run_go [Func.run, Src.Parser.Insert, bindParams, h0, h1, ParserP.Insert, presVals, hg, hx, hx', errVal, h2, hw, h3, h4, h5, h6, he]
      ·
        have c1 : Closed (h ++ [⟨[], [], none, []⟩]) := hh.new (by simp) (by simp)
        have hnew := run_createNode (fl := fl) (fuel := fuel) (d := d + 2) (sp := false) (h := h) none
        simp only [createNode, NHeap.new, ptrVal_none] at hnew
        have hlen : (h ++ [⟨[], [], none, []⟩] : NHeap).length = h.length + 1 := by simp
        have hq : h.length < (h ++ [⟨[], [], none, []⟩] : NHeap).length := by omega
        have hc0 : curr < (h ++ [⟨[], [], none, []⟩] : NHeap).length := by omega
        have hd0 : ∀ u, (h ++ [⟨[], [], none, []⟩] : NHeap)[curr]? = some u → u.down.length + 1 < fuel := fun u hu => hfd u (List.mem_of_getElem? (by rwa [List.getElem?_append_left hcl] at hu))
        rcases vc_cases newVal with ⟨k2, kc⟩ | ⟨k2, c, k3, ⟨k4, k5, kc⟩ | ⟨ht, kc⟩⟩
        · have hb := bare_false h newVal
          have i1 := run_insert (fl := fl) (fuel := fuel) (d := d + 1) (sp := false) c1 hq hc0 index (fun u hu => Nat.lt_of_succ_lt (hd0 u hu))
          cases hi1 : NHeap.insert (h ++ [⟨[], [], none, []⟩]) h.length curr index with
          | panic =>
            rw [hi1] at i1
            run_go [Func.run, Src.Parser.Insert, bindParams, h0, h1, ParserP.Insert, presVals, hg, hx, hx', errVal, h2, h3, h4, h5, h6, he, k2, kc, hb, hw, hnew, i1, hi1]
          | err x =>
            rw [hi1] at i1
            run_go [Func.run, Src.Parser.Insert, bindParams, h0, h1, ParserP.Insert, presVals, hg, hx, hx', errVal, h2, h3, h4, h5, h6, he, k2, kc, hb, hw, hnew, i1, hi1]
          | ok h2' =>
            rw [hi1] at i1
            obtain ⟨c2, s2, d2⟩ := insert_closed c1 hc0 hi1
            obtain ⟨rq, r, n1, l1, n2, l2, ca, sa, -⟩ := value_steps (fuel := fuel) c2 (q := h.length) (curr := curr) (by omega) (by omega) (by omega) newVal (down_bound d2 hd0)
            obtain ⟨rz, n4, l4, cc, sc⟩ := up_steps ca (q := h.length) (curr := curr) (by omega) (by omega)
            cases hj : Jin.Insert p.json index newVal path with
            | panic =>
              rw [hj] at hs
              run_go [Func.run, Src.Parser.Insert, bindParams, h0, h1, ParserP.Insert, presVals, hg, hx, hx', errVal, h2, h3, h4, h5, h6, he, k2, kc, hb, hw, hnew, i1, hi1, n1, l1, n2, l2, n4, l4, NHeap.attach, hs, hj, mutVals]
            | done j e' =>
              rw [hj] at hs
              cases e' with
              | some x =>
                run_go [Func.run, Src.Parser.Insert, bindParams, h0, h1, ParserP.Insert, presVals, hg, hx, hx', errVal, h2, h3, h4, h5, h6, he, k2, kc, hb, hw, hnew, i1, hi1, n1, l1, n2, l2, n4, l4, NHeap.attach, hs, hj, mutVals]
              | none =>
                have H := insert2_for (fl := fl) (d := d) (hf3 j (by rw [hj]; rfl)) p json newVal curr h.length index h.length cc (by omega)
                rcases hq' : climb j (prefixes path 1 path.length) h.length _ with _ | ⟨h', _ | x⟩
                · rw [hq'] at H
                  run_go [Func.run, Src.Parser.Insert, bindParams, h0, h1, ParserP.Insert, presVals, hg, hx, hx', errVal, h2, h3, h4, h5, h6, he, k2, kc, hb, hw, hnew, i1, hi1, n1, l1, n2, l2, n4, l4, NHeap.attach, hs, hj, mutVals, H, finishP, hq']
                · rw [hq'] at H
                  obtain ⟨cu', H⟩ := H
                  run_go [Func.run, Src.Parser.Insert, bindParams, h0, h1, ParserP.Insert, presVals, hg, hx, hx', errVal, h2, h3, h4, h5, h6, he, k2, kc, hb, hw, hnew, i1, hi1, n1, l1, n2, l2, n4, l4, NHeap.attach, hs, hj, mutVals, H, finishP, hq']
                · rw [hq'] at H
                  run_go [Func.run, Src.Parser.Insert, bindParams, h0, h1, ParserP.Insert, presVals, hg, hx, hx', errVal, h2, h3, h4, h5, h6, he, k2, kc, hb, hw, hnew, i1, hi1, n1, l1, n2, l2, n4, l4, NHeap.attach, hs, hj, mutVals, H, finishP, hq']
        · have hb := bare_false h newVal
          have i1 := run_insert (fl := fl) (fuel := fuel) (d := d + 1) (sp := false) c1 hq hc0 index (fun u hu => Nat.lt_of_succ_lt (hd0 u hu))
          cases hi1 : NHeap.insert (h ++ [⟨[], [], none, []⟩]) h.length curr index with
          | panic =>
            rw [hi1] at i1
            run_go [Func.run, Src.Parser.Insert, bindParams, h0, h1, ParserP.Insert, presVals, hg, hx, hx', errVal, h2, h3, h4, h5, h6, he, k2, kc, hb, hw, k3, k4, k5, hnew, i1, hi1]
          | err x =>
            rw [hi1] at i1
            run_go [Func.run, Src.Parser.Insert, bindParams, h0, h1, ParserP.Insert, presVals, hg, hx, hx', errVal, h2, h3, h4, h5, h6, he, k2, kc, hb, hw, k3, k4, k5, hnew, i1, hi1]
          | ok h2' =>
            rw [hi1] at i1
            obtain ⟨c2, s2, d2⟩ := insert_closed c1 hc0 hi1
            obtain ⟨rq, r, n1, l1, n2, l2, ca, sa, -⟩ := value_steps (fuel := fuel) c2 (q := h.length) (curr := curr) (by omega) (by omega) (by omega) newVal (down_bound d2 hd0)
            obtain ⟨rz, n4, l4, cc, sc⟩ := up_steps ca (q := h.length) (curr := curr) (by omega) (by omega)
            cases hj : Jin.Insert p.json index newVal path with
            | panic =>
              rw [hj] at hs
              run_go [Func.run, Src.Parser.Insert, bindParams, h0, h1, ParserP.Insert, presVals, hg, hx, hx', errVal, h2, h3, h4, h5, h6, he, k2, kc, hb, hw, k3, k4, k5, hnew, i1, hi1, n1, l1, n2, l2, n4, l4, NHeap.attach, hs, hj, mutVals]
            | done j e' =>
              rw [hj] at hs
              cases e' with
              | some x =>
                run_go [Func.run, Src.Parser.Insert, bindParams, h0, h1, ParserP.Insert, presVals, hg, hx, hx', errVal, h2, h3, h4, h5, h6, he, k2, kc, hb, hw, k3, k4, k5, hnew, i1, hi1, n1, l1, n2, l2, n4, l4, NHeap.attach, hs, hj, mutVals]
              | none =>
                have H := insert2_for (fl := fl) (d := d) (hf3 j (by rw [hj]; rfl)) p json newVal curr h.length index h.length cc (by omega)
                rcases hq' : climb j (prefixes path 1 path.length) h.length _ with _ | ⟨h', _ | x⟩
                · rw [hq'] at H
                  run_go [Func.run, Src.Parser.Insert, bindParams, h0, h1, ParserP.Insert, presVals, hg, hx, hx', errVal, h2, h3, h4, h5, h6, he, k2, kc, hb, hw, k3, k4, k5, hnew, i1, hi1, n1, l1, n2, l2, n4, l4, NHeap.attach, hs, hj, mutVals, H, finishP, hq']
                · rw [hq'] at H
                  obtain ⟨cu', H⟩ := H
                  run_go [Func.run, Src.Parser.Insert, bindParams, h0, h1, ParserP.Insert, presVals, hg, hx, hx', errVal, h2, h3, h4, h5, h6, he, k2, kc, hb, hw, k3, k4, k5, hnew, i1, hi1, n1, l1, n2, l2, n4, l4, NHeap.attach, hs, hj, mutVals, H, finishP, hq']
                · rw [hq'] at H
                  run_go [Func.run, Src.Parser.Insert, bindParams, h0, h1, ParserP.Insert, presVals, hg, hx, hx', errVal, h2, h3, h4, h5, h6, he, k2, kc, hb, hw, k3, k4, k5, hnew, i1, hi1, n1, l1, n2, l2, n4, l4, NHeap.attach, hs, hj, mutVals, H, finishP, hq']
        ·
          obtain ⟨e1, hcl1⟩ := run_pCore (fl := fl) (fuel := fuel) (d := d + 1) hf2 false (h ++ [⟨[], [], none, []⟩]) h.length c1 hq
          cases hpc : pCoreP newVal h.length (h ++ [⟨[], [], none, []⟩]) with
          | none =>
            have hb : bareNodeP h true newVal = none := by rw [bare_true, hpc]; rfl
            rw [hpc] at e1
            rcases ht with ⟨k4, k5⟩ | ⟨k4, k5⟩ <;>
              run_go [Func.run, Src.Parser.Insert, bindParams, h0, h1, ParserP.Insert, presVals, hg, hx, hx', errVal, h2, h3, h4, h5, h6, he, k2, kc, hb, hw, k3, k4, k5, hnew, e1]
          | some h1' =>
            have hb : bareNodeP h true newVal = some (h1', h.length) := by rw [bare_true, hpc]; rfl
            rw [hpc] at e1
            obtain ⟨c1, c2⟩ := hcl1 h1' hpc
            rw [hlen] at c2
            have hq : h.length < h1'.length := by omega
            have hc0 : curr < h1'.length := by omega
            have hd0 : ∀ u, h1'[curr]? = some u → u.down.length + 1 < fuel := fun u hu => hfd u (List.mem_of_getElem? ((pCore_frame hpc hcl) ▸ hu))
            have i1 := run_insert (fl := fl) (fuel := fuel) (d := d + 1) (sp := false) c1 hq hc0 index (fun u hu => Nat.lt_of_succ_lt (hd0 u hu))
            cases hi1 : NHeap.insert h1' h.length curr index with
            | panic =>
              rw [hi1] at i1
              rcases ht with ⟨k4, k5⟩ | ⟨k4, k5⟩ <;>
                run_go [Func.run, Src.Parser.Insert, bindParams, h0, h1, ParserP.Insert, presVals, hg, hx, hx', errVal, h2, h3, h4, h5, h6, he, k2, kc, hb, hw, k3, k4, k5, hnew, e1, i1, hi1]
            | err x =>
              rw [hi1] at i1
              rcases ht with ⟨k4, k5⟩ | ⟨k4, k5⟩ <;>
                run_go [Func.run, Src.Parser.Insert, bindParams, h0, h1, ParserP.Insert, presVals, hg, hx, hx', errVal, h2, h3, h4, h5, h6, he, k2, kc, hb, hw, k3, k4, k5, hnew, e1, i1, hi1]
            | ok h2' =>
              rw [hi1] at i1
              obtain ⟨c2, s2, d2⟩ := insert_closed c1 hc0 hi1
              obtain ⟨rq, r, n1, l1, n2, l2, ca, sa, -⟩ := value_steps (fuel := fuel) c2 (q := h.length) (curr := curr) (by omega) (by omega) (by omega) newVal (down_bound d2 hd0)
              obtain ⟨rz, n4, l4, cc, sc⟩ := up_steps ca (q := h.length) (curr := curr) (by omega) (by omega)
              cases hj : Jin.Insert p.json index newVal path with
              | panic =>
                rw [hj] at hs
                rcases ht with ⟨k4, k5⟩ | ⟨k4, k5⟩ <;>
                  run_go [Func.run, Src.Parser.Insert, bindParams, h0, h1, ParserP.Insert, presVals, hg, hx, hx', errVal, h2, h3, h4, h5, h6, he, k2, kc, hb, hw, k3, k4, k5, hnew, e1, i1, hi1, n1, l1, n2, l2, n4, l4, NHeap.attach, hs, hj, mutVals]
              | done j e' =>
                rw [hj] at hs
                cases e' with
                | some x =>
                  rcases ht with ⟨k4, k5⟩ | ⟨k4, k5⟩ <;>
                    run_go [Func.run, Src.Parser.Insert, bindParams, h0, h1, ParserP.Insert, presVals, hg, hx, hx', errVal, h2, h3, h4, h5, h6, he, k2, kc, hb, hw, k3, k4, k5, hnew, e1, i1, hi1, n1, l1, n2, l2, n4, l4, NHeap.attach, hs, hj, mutVals]
                | none =>
                  have H := insert1_for (fl := fl) (d := d) (hf3 j (by rw [hj]; rfl)) p json newVal curr h.length index h.length cc (by omega)
                  rcases hq' : climb j (prefixes path 1 path.length) h.length _ with _ | ⟨h', _ | x⟩
                  · rw [hq'] at H
                    rcases ht with ⟨k4, k5⟩ | ⟨k4, k5⟩ <;>
                      run_go [Func.run, Src.Parser.Insert, bindParams, h0, h1, ParserP.Insert, presVals, hg, hx, hx', errVal, h2, h3, h4, h5, h6, he, k2, kc, hb, hw, k3, k4, k5, hnew, e1, i1, hi1, n1, l1, n2, l2, n4, l4, NHeap.attach, hs, hj, mutVals, H, finishP, hq']
                  · rw [hq'] at H
                    obtain ⟨cu', H⟩ := H
                    rcases ht with ⟨k4, k5⟩ | ⟨k4, k5⟩ <;>
                      run_go [Func.run, Src.Parser.Insert, bindParams, h0, h1, ParserP.Insert, presVals, hg, hx, hx', errVal, h2, h3, h4, h5, h6, he, k2, kc, hb, hw, k3, k4, k5, hnew, e1, i1, hi1, n1, l1, n2, l2, n4, l4, NHeap.attach, hs, hj, mutVals, H, finishP, hq']
                  · rw [hq'] at H
                    rcases ht with ⟨k4, k5⟩ | ⟨k4, k5⟩ <;>
                      run_go [Func.run, Src.Parser.Insert, bindParams, h0, h1, ParserP.Insert, presVals, hg, hx, hx', errVal, h2, h3, h4, h5, h6, he, k2, kc, hb, hw, k3, k4, k5, hnew, e1, i1, hi1, n1, l1, n2, l2, n4, l4, NHeap.attach, hs, hj, mutVals, H, finishP, hq']

end

end Jin.Go
