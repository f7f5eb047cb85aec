import Verif.Go.Core
import Verif.Proof.Seq
import Verif.Model.ParserPtr
/-!
# Go.Heap — nodes, pointers and the stacks of `pCore` in the text
-/

namespace Jin.Go

/-! ### Rules -/

@[go_run] theorem eq_ptrs_nil (l : List Nat) : Val.eq (.ptrs l) .nil = .ok l.isEmpty := rfl
@[go_run] theorem index_ptrs (b : List Nat) (i : Val) : Val.index (.ptrs b) i = i.int?.bind fun i => (elem b i).bind fun c => .ok (.ptr c) := rfl
@[go_run] theorem len_ptrs (b : List Nat) : Val.len (.ptrs b) = .ok b.length := rfl
@[go_run] theorem append_ptrs (a : List Nat) (x : Nat) : Val.append (.ptrs a) (.ptr x) = .ok (.ptrs (a ++ [x])) := rfl
@[go_run] theorem store_ptrs (l : List Nat) (i : Val) (b : Nat) : Val.store (.ptrs l) i (.ptr b) = i.int?.bind fun i => (put l i b).bind fun b => .ok (.ptrs b) := rfl
@[go_run] theorem items_ptrs (l : List Nat) : Val.items (.ptrs l) = .ok (l.mapIdx fun i c => (.int i, .ptr c)) := rfl

@[go_run] theorem field_ptr (env : Env) (f : Field) (p : Nat) :
    Val.field env f (.ptr p) = env.heap.bind fun h => (node h p).bind fun r => .ok (f.get r) := rfl
@[go_run] theorem field_nil (env : Env) (f : Field) : Val.field env f .nil = .panic := rfl
@[go_run] theorem setField_ptr (env : Env) (f : Field) (v : Val) (p : Nat) :
    Val.setField (.ptr p) env f v = env.heap.bind fun h => (node h p).bind fun r => (f.set r v).bind fun r => .ok (.heap (h.set p r)) := rfl
@[go_run] theorem setField_nil (env : Env) (f : Field) (v : Val) : Val.setField .nil env f v = .panic := rfl

/-- A pointer that may be `nil`. -/
def ptrVal : Option Nat → Val
  | some p => .ptr p
  | none => .nil

@[go_run] theorem get_label (r : NodeRec) : Field.get r .label = .bytes r.label := rfl
@[go_run] theorem get_value (r : NodeRec) : Field.get r .value = .bytes r.value := rfl
@[go_run] theorem get_up (r : NodeRec) : Field.get r .up = ptrVal r.up := by
  simp only [Field.get, ptrVal]; cases r.up <;> rfl
@[go_run] theorem get_down (r : NodeRec) : Field.get r .down = .ptrs r.down := rfl
@[go_run] theorem set_label (r : NodeRec) (b : Bytes) : Field.set r .label (.bytes b) = .ok { r with label := b } := rfl
@[go_run] theorem set_value (r : NodeRec) (b : Bytes) : Field.set r .value (.bytes b) = .ok { r with value := b } := rfl
@[go_run] theorem set_value_nil (r : NodeRec) : Field.set r .value .nil = .ok { r with value := [] } := rfl
@[go_run] theorem set_up (r : NodeRec) (p : Option Nat) : Field.set r .up (ptrVal p) = .ok { r with up := p } := by cases p <;> rfl
@[go_run] theorem set_up_ptr (r : NodeRec) (p : Nat) : Field.set r .up (.ptr p) = .ok { r with up := some p } := rfl
@[go_run] theorem set_up_nil (r : NodeRec) : Field.set r .up .nil = .ok { r with up := none } := rfl
@[go_run] theorem set_down (r : NodeRec) (l : List Nat) : Field.set r .down (.ptrs l) = .ok { r with down := l } := rfl
@[go_run] theorem ptrVal_some (p : Nat) : ptrVal (some p) = .ptr p := rfl
@[go_run] theorem ptrVal_none : ptrVal none = .nil := rfl

attribute [go_run] Env.heap heapId newNode

theorem node_ok {h : NHeap} {p : Nat} {r : NodeRec} (e : h[p]? = some r) : node h p = .ok r := by simp [node, e]

/-- Every pointer in the memory points into it. -/
def Closed (h : NHeap) : Prop :=
  ∀ (a : Nat) (r : NodeRec), h[a]? = some r → (∀ u, r.up = some u → u < h.length) ∧ ∀ d ∈ r.down, d < h.length

theorem set_modify {α : Type} {l : List α} {i : Nat} {a : α} (f : α → α) (h : l[i]? = some a) : l.set i (f a) = l.modify i f := by
  apply List.ext_getElem?
  intro j
  rw [List.getElem?_set, List.getElem?_modify]
  by_cases e : i = j
  · subst e
    obtain ⟨hl, he⟩ := List.getElem?_eq_some_iff.1 h
    simp [hl, he]
  · simp [e]

theorem set_eq {α : Type} {l : List α} {i : Nat} {a b : α} (f : α → α) (h : l[i]? = some a) (hb : b = f a) : l.set i b = l.modify i f := by
  rw [hb, set_modify f h]

theorem node_at {h : NHeap} {p : Nat} (hp : p < h.length) : ∃ r, h[p]? = some r := ⟨_, List.getElem?_eq_getElem hp⟩

theorem Closed.new {h : NHeap} (hh : Closed h) {r : NodeRec} (hu : ∀ u, r.up = some u → u < h.length) (hd : ∀ d ∈ r.down, d < h.length) :
    Closed (h ++ [r]) := by
  intro a x hx
  rw [List.length_append, List.length_singleton]
  by_cases ha : a < h.length
  · rw [List.getElem?_append_left ha] at hx
    obtain ⟨h1, h2⟩ := hh a x hx
    exact ⟨fun u e => Nat.lt_succ_of_lt (h1 u e), fun d e => Nat.lt_succ_of_lt (h2 d e)⟩
  · rw [List.getElem?_append_right (Nat.le_of_not_lt ha)] at hx
    have : x = r := by
      cases hk : a - h.length with
      | zero => rw [hk] at hx; simpa using hx.symm
      | succ n => rw [hk] at hx; simp at hx
    subst this
    exact ⟨fun u e => Nat.lt_succ_of_lt (hu u e), fun d e => Nat.lt_succ_of_lt (hd d e)⟩

theorem Closed.modify {h : NHeap} (hh : Closed h) {p : Nat} {f : NodeRec → NodeRec}
    (hf : ∀ r, h[p]? = some r → (∀ u, (f r).up = some u → u < h.length) ∧ ∀ d ∈ (f r).down, d < h.length) :
    Closed (h.modify p f) := by
  intro a x hx
  rw [List.length_modify]
  rw [List.getElem?_modify] at hx
  cases hr : h[a]? with
  | none => simp [hr] at hx
  | some r =>
    by_cases e : p = a
    · subst e
      simp only [hr, Option.map_eq_map, Option.map_some, if_true, Option.some.injEq] at hx
      have := hf r hr
      rw [hx] at this
      exact this
    · rw [hr] at hx
      simp only [e, if_false, Option.map_eq_map, Option.map_some, Option.some.injEq] at hx
      subst hx
      exact hh a r hr

theorem Closed.setValue {h : NHeap} (hh : Closed h) (p : Nat) (v : Bytes) : Closed (h.setValue p v) :=
  hh.modify fun r hr => hh p r hr

theorem Closed.setLabel {h : NHeap} (hh : Closed h) (p : Nat) (v : Bytes) : Closed (h.setLabel p v) :=
  hh.modify fun r hr => hh p r hr

theorem Closed.setUp {h : NHeap} (hh : Closed h) (p : Nat) {u : Option Nat} (hu : ∀ x, u = some x → x < h.length) : Closed (h.setUp p u) :=
  hh.modify fun r hr => ⟨hu, (hh p r hr).2⟩

theorem Closed.setDown {h : NHeap} (hh : Closed h) (p : Nat) {l : List Nat} (hl : ∀ d ∈ l, d < h.length) : Closed (h.setDown p l) :=
  hh.modify fun r hr => ⟨(hh p r hr).1, hl⟩

theorem Closed.addDown {h : NHeap} (hh : Closed h) (p : Nat) {q : Nat} (hq : q < h.length) : Closed (h.addDown p q) :=
  hh.modify fun r hr => ⟨(hh p r hr).1, fun d hd => by
    rcases List.mem_append.1 hd with hd | hd
    · exact (hh p r hr).2 d hd
    · rw [List.mem_singleton.1 hd]; exact hq⟩

@[simp] theorem length_setValue (h : NHeap) (p : Nat) (v : Bytes) : (h.setValue p v).length = h.length := List.length_modify ..
@[simp] theorem length_setLabel (h : NHeap) (p : Nat) (v : Bytes) : (h.setLabel p v).length = h.length := List.length_modify ..
@[simp] theorem length_setUp (h : NHeap) (p : Nat) (u : Option Nat) : (h.setUp p u).length = h.length := List.length_modify ..
@[simp] theorem length_setDown (h : NHeap) (p : Nat) (l : List Nat) : (h.setDown p l).length = h.length := List.length_modify ..
@[simp] theorem length_addDown (h : NHeap) (p q : Nat) : (h.addDown p q).length = h.length := List.length_modify ..

/-! ### sequence.go -/

section
variable (fl : FloatLib UInt64) (fuel d : Nat) (sp : Bool)

theorem run_makeSeq (n : Nat) : (jin fl).fn fuel (d + 1) (go% makeSeq) sp [.int n] = .ok [.ints (makeSeq n).list, .int (makeSeq n).index, .int (makeSeq n).length] := by
  rw [fn_run (g := Src.makeSeq) rfl]
  run_go [Func.run, Src.makeSeq, bindParams]
  rw [if_neg (by omega)]
  run_go [makeSeq, Int.toNat_natCast]

theorem run_push (s : Seq) (x : Int) : (jin fl).fn fuel (d + 1) (go% sequance.push) sp [.ints s.list, .int s.index, .int s.length, .int x] =
    match s.push x with | .ok s' => .ok [.ints s'.list, .int s'.index, .int s'.length] | _ => .panic := by
  rw [fn_run (g := Src.sequance.push) rfl]
  obtain ⟨list, index, length⟩ := s
  have hz : ¬ ((length : Int) + 4 < 0) := by omega
  have hn : ((length : Int) + 4).toNat = length + 4 := by omega
  have ho : over (List.replicate (length + 4) (0 : Int)) 0 list =
      .ok (list.take (length + 4) ++ List.replicate (length + 4 - list.length) 0) := by
    simp only [over, List.length_replicate]
    rw [if_pos ⟨by omega, by omega⟩]
    simp only [Int.toNat_zero, List.take_zero, List.nil_append, Nat.sub_zero, Nat.zero_add, List.drop_replicate]
    rw [show length + 4 - min list.length (length + 4) = length + 4 - list.length by omega]
  by_cases h1 : (length : Int) - 1 < index
  · by_cases h2 : 0 ≤ index ∧ index < (list.take (length + 4) ++ List.replicate (length + 4 - list.length) (0 : Int)).length
    · run_go [Func.run, Src.sequance.push, bindParams, h1, decide_true, hz, hn, ho, put, Seq.push, gt_iff_lt]
      rw [if_pos h2]
      simp only [if_pos h2]
      run_go []
      rfl
    · run_go [Func.run, Src.sequance.push, bindParams, h1, decide_true, hz, hn, ho, put, Seq.push, gt_iff_lt]
      rw [if_neg h2]
      simp only [if_neg h2]
      run_go []
  · by_cases h2 : 0 ≤ index ∧ index < list.length
    · run_go [Func.run, Src.sequance.push, bindParams, h1, decide_false, put, Seq.push, gt_iff_lt]
      rw [if_pos h2]
      simp only [if_pos h2]
      run_go []
    · run_go [Func.run, Src.sequance.push, bindParams, h1, decide_false, put, Seq.push, gt_iff_lt]
      rw [if_neg h2]
      simp only [if_neg h2]
      run_go []

theorem elem_ite {α : Type} (l : List α) (i : Int) : elem l i = if 0 ≤ i then ofOpt l[i.toNat]? else .panic := by
  simp only [elem]
  by_cases h : i < 0
  · rw [if_pos h, if_neg (by omega)]
  · rw [if_neg h, if_pos (by omega)]
    cases l[i.toNat]? <;> rfl

theorem run_pop (s : Seq) : (jin fl).fn fuel (d + 1) (go% sequance.pop) sp [.ints s.list, .int s.index, .int s.length] =
    match s.pop with | .ok (x, s') => .ok [.ints s'.list, .int s'.index, .int s'.length, .int x] | _ => .panic := by
  rw [fn_run (g := Src.sequance.pop) rfl]
  obtain ⟨list, index, length⟩ := s
  by_cases h1 : -1 < index
  · by_cases h2 : 0 ≤ index - 1
    · cases h3 : list[(index - 1).toNat]? <;>
        run_go [Func.run, Src.sequance.pop, bindParams, h1, decide_true, Seq.pop, gt_iff_lt, elem_ite, h2, h3]
    · run_go [Func.run, Src.sequance.pop, bindParams, h1, decide_true, Seq.pop, gt_iff_lt, elem_ite, h2]
  · run_go [Func.run, Src.sequance.pop, bindParams, h1, decide_false, Seq.pop, gt_iff_lt]

theorem run_last (s : Seq) : (jin fl).fn fuel (d + 1) (go% sequance.last) sp [.ints s.list, .int s.index, .int s.length] =
    match s.last with | .ok x => .ok [.ints s.list, .int s.index, .int s.length, .int x] | _ => .panic := by
  rw [fn_run (g := Src.sequance.last) rfl]
  obtain ⟨list, index, length⟩ := s
  by_cases h2 : 0 ≤ index - 1
  · cases h3 : list[(index - 1).toNat]? <;>
      run_go [Func.run, Src.sequance.last, bindParams, Seq.last, elem_ite, h2, h3]
  · run_go [Func.run, Src.sequance.last, bindParams, Seq.last, elem_ite, h2]

theorem run_inc (s : Seq) : (jin fl).fn fuel (d + 1) (go% sequance.inc) sp [.ints s.list, .int s.index, .int s.length] =
    match s.inc with | .ok s' => .ok [.ints s'.list, .int s'.index, .int s'.length] | _ => .panic := by
  rw [fn_run (g := Src.sequance.inc) rfl]
  obtain ⟨list, index, length⟩ := s
  by_cases h2 : 0 ≤ index - 1
  · cases h3 : list[(index - 1).toNat]? with
    | none => run_go [Func.run, Src.sequance.inc, bindParams, Seq.inc, elem_ite, h2, h3]
    | some v =>
      have hl := (List.getElem?_eq_some_iff.1 h3).1
      have h4 : 0 ≤ index - 1 ∧ index - 1 < list.length := ⟨h2, by omega⟩
      run_go [Func.run, Src.sequance.inc, bindParams, Seq.inc, elem_ite, h2, h3, put, h4]
  · run_go [Func.run, Src.sequance.inc, bindParams, Seq.inc, elem_ite, h2]

end

end Jin.Go
