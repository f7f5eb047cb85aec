import Verif.Go.PCore
import Verif.Go.Insert
import Verif.Go.SetMore
import Verif.Go.Maps
/-!
# Go.Parser — the functions of `parse_utils.go` in the text
-/

namespace Jin.Go

section
variable {fl : FloatLib UInt64} {fuel d : Nat} {sp : Bool} {h : NHeap}

theorem run_createNode (up : Option Nat) :
    (jin fl).fn fuel (d + 1) (go% createNode) sp [.heap h, ptrVal up] = .ok [.heap (createNode h up).1, .ptr (createNode h up).2] := by
  rw [fn_run (g := Src.createNode) rfl]
  run_go [Func.run, Src.createNode, bindParams, createNode, NHeap.new]

/-! ### walk -/

abbrev wEnv (h : NHeap) (n : Nat) (path : List Bytes) : Env := [(go% heap, .heap h), (go% n, .ptr n), (go% path, .strs path)]

theorem walk_body2 (p : Bytes) (path : List Bytes) (n : Nat) (q : Nat) (r : NodeRec) (hq : h[q]? = some r) :
    exec (ctx fl fuel d) fuel Src.node.walk.body2 ⟨(), (go% d, .ptr q) :: (0, .nil) :: (go% p, .bytes p) :: (0, .nil) :: wEnv h n path⟩ =
    if r.label == p then .jump (go% cont) ⟨(), (go% d, .ptr q) :: (0, .nil) :: (go% p, .bytes p) :: (0, .nil) :: wEnv h q path⟩
    else .norm ⟨(), (go% d, .ptr q) :: (0, .nil) :: (go% p, .bytes p) :: (0, .nil) :: wEnv h n path⟩ := by
  cases e : r.label == p <;> run_go [Src.node.walk.body2, node_ok hq, e]

theorem walk_range (p : Bytes) (path : List Bytes) (n : Nat) : ∀ (down : List Nat) (items : List (Val × Val)),
    items.map Prod.snd = down.map Val.ptr → (∀ q ∈ down, q < h.length) →
    rangeN 0 (go% d) (fun s => exec (ctx fl fuel d) fuel Src.node.walk.body2 s) items ⟨(), (go% p, .bytes p) :: (0, .nil) :: wEnv h n path⟩ =
    match h.child? p down with
    | some q => .jump (go% cont) ⟨(), (go% p, .bytes p) :: (0, .nil) :: wEnv h q path⟩
    | none => .norm ⟨(), (go% p, .bytes p) :: (0, .nil) :: wEnv h n path⟩ := by
  intro down
  induction down with
  | nil =>
    intro items hi _
    cases items with
    | nil => rfl
    | cons x xs => simp at hi
  | cons q down ih =>
    intro items hi hd
    cases items with
    | nil => simp at hi
    | cons x items =>
      obtain ⟨a, b⟩ := x
      simp only [List.map_cons, List.cons.injEq] at hi
      obtain ⟨rfl, hi⟩ := hi
      obtain ⟨r, hr⟩ := node_at (hd q (List.mem_cons_self ..))
      have e := walk_body2 (fl := fl) (fuel := fuel) (d := d) p path n q r hr
      have ih := ih items hi fun q hq => hd q (List.mem_cons_of_mem _ hq)
      rw [rangeN]
      cases hl : r.label == p
      · rw [hl] at e
        have hc : h.child? p (q :: down) = h.child? p down := by simp [NHeap.child?, hr, hl]
        rw [hc]
        run_go [Env.new, e, ih]
      · rw [hl] at e
        have hc : h.child? p (q :: down) = some q := by simp [NHeap.child?, hr, hl]
        rw [hc]
        run_go [Env.new, e]

theorem child_mem {p : Bytes} {down : List Nat} {q : Nat} (e : h.child? p down = some q) : q ∈ down := List.mem_of_find?_eq_some e

theorem walk_body1 (p : Bytes) (path : List Bytes) (n : Nat) (r : NodeRec) (hr : h[n]? = some r) (hd : ∀ q ∈ r.down, q < h.length) :
    exec (ctx fl fuel (d + 1)) fuel Src.node.walk.body1 ⟨(), (go% p, .bytes p) :: (0, .nil) :: wEnv h n path⟩ =
    match h.child? p r.down with
    | some q => .cont ⟨(), (go% p, .bytes p) :: (0, .nil) :: wEnv h q path⟩
    | none => .ret () [.heap h, .nil, .err (.keyNotFound p)] := by
  have e := walk_range (fl := fl) (fuel := fuel) (d := d + 1) p path n r.down (r.down.mapIdx fun i c => (.int i, .ptr c)) (by simp [List.ext_getElem_iff]) hd
  cases hc : h.child? p r.down with
  | none => rw [hc] at e; run_go [Src.node.walk.body1, Src.node.walk.for2, node_ok hr, e]
  | some q => rw [hc] at e; run_go [Src.node.walk.body1, Src.node.walk.for2, node_ok hr, e]

theorem walk_for1 (hh : Closed h) (path0 : List Bytes) : ∀ (path : List Bytes) (items : List (Val × Val)) (n : Nat),
    items.map Prod.snd = path.map Val.bytes → n < h.length →
    rangeN 0 (go% p) (fun s => exec (ctx fl fuel (d + 1)) fuel Src.node.walk.body1 s) items ⟨(), wEnv h n path0⟩ =
    match h.walk n path with
    | .ok m => .norm ⟨(), wEnv h m path0⟩
    | .err e => .ret () [.heap h, .nil, .err e]
    | .panic => .panic := by
  intro path
  induction path with
  | nil =>
    intro items n hi _
    cases items with
    | nil => rfl
    | cons x xs => simp at hi
  | cons p path ih =>
    intro items n hi hn
    cases items with
    | nil => simp at hi
    | cons x items =>
      obtain ⟨a, b⟩ := x
      simp only [List.map_cons, List.cons.injEq] at hi
      obtain ⟨rfl, hi⟩ := hi
      obtain ⟨r, hr⟩ := node_at hn
      have hd := (hh n r hr).2
      have e := walk_body1 (fl := fl) (fuel := fuel) (d := d) p path0 n r hr hd
      rw [rangeN]
      cases hc : h.child? p r.down with
      | none =>
        rw [hc] at e
        have hw : h.walk n (p :: path) = .err (.keyNotFound p) := by simp only [NHeap.walk, hr, hc]
        rw [hw]
        run_go [Env.new, e]
      | some q =>
        rw [hc] at e
        have hw : h.walk n (p :: path) = h.walk q path := by simp only [NHeap.walk, hr, hc]
        rw [hw]
        have ih := ih items q hi (hd q (child_mem hc))
        run_go [Env.new, e, ih]

/-- `node.walk` -/
theorem run_nodeWalk (hh : Closed h) {n : Nat} (hn : n < h.length) (path : List Bytes) :
    (jin fl).fn fuel (d + 2) (go% node.walk) sp [.heap h, .ptr n, .strs path] =
    match h.walk n path with
    | .ok m => .ok [.heap h, .ptr m, .nil]
    | .err e => .ok [.heap h, .nil, .err e]
    | .panic => .panic := by
  rw [fn_run (g := Src.node.walk) rfl]
  have e := walk_for1 (fl := fl) (fuel := fuel) (d := d) hh path path (path.mapIdx fun i c => (.int i, .bytes c)) n (by simp [List.ext_getElem_iff]) hn
  cases hw : h.walk n path with
  | ok m => rw [hw] at e; run_go [Func.run, Src.node.walk, Src.node.walk.for1, bindParams, e]
  | err x => rw [hw] at e; run_go [Func.run, Src.node.walk, Src.node.walk.for1, bindParams, e]
  | panic => rw [hw] at e; run_go [Func.run, Src.node.walk, Src.node.walk.for1, bindParams, e]

theorem walk_lt (hh : Closed h) : ∀ (path : List Bytes) {n m : Nat}, n < h.length → h.walk n path = .ok m → m < h.length := by
  intro path
  induction path with
  | nil => intro n m hn e; rw [NHeap.walk] at e; cases e; exact hn
  | cons p path ih =>
    intro n m hn e
    obtain ⟨r, hr⟩ := node_at hn
    simp only [NHeap.walk, hr] at e
    cases hc : h.child? p r.down with
    | none => rw [hc] at e; cases e
    | some q => rw [hc] at e; exact ih ((hh n r hr).2 q (child_mem hc)) e

theorem walk_no_panic (hh : Closed h) : ∀ (path : List Bytes) {n : Nat}, n < h.length → h.walk n path ≠ .panic := by
  intro path
  induction path with
  | nil => intro n hn e; rw [NHeap.walk] at e; cases e
  | cons p path ih =>
    intro n hn e
    obtain ⟨r, hr⟩ := node_at hn
    simp only [NHeap.walk, hr] at e
    cases hc : h.child? p r.down with
    | none => rw [hc] at e; cases e
    | some q => rw [hc] at e; exact ih ((hh n r hr).2 q (child_mem hc)) e

/-! ### getIndex -/

abbrev nEnv (h : NHeap) (n : Nat) : Env := [(go% heap, .heap h), (go% n, .ptr n)]

theorem getIndex_range (n : Nat) (r : NodeRec) (hr : h[n]? = some r) : ∀ (down : List Nat) (k : Nat), (∀ q ∈ down, q < h.length) →
    rangeN (go% i) (go% v) (fun s => exec (ctx fl fuel d) fuel Src.node.getIndex.body1 s) (down.mapIdx fun i c => (.int ((k + i : Nat) : Int), .ptr c)) ⟨(), nEnv h n⟩ =
    match down.findIdx? fun d => match h[d]? with | some x => x.label == r.label | none => false with
    | some i => .ret () [.heap h, .int ((k + i : Nat) : Int)]
    | none => .norm ⟨(), nEnv h n⟩ := by
  intro down
  induction down with
  | nil => intro k _; rfl
  | cons q down ih =>
    intro k hd
    obtain ⟨x, hx⟩ := node_at (hd q (List.mem_cons_self ..))
    have ih := ih (k + 1) fun q hq => hd q (List.mem_cons_of_mem _ hq)
    have e : exec (ctx fl fuel d) fuel Src.node.getIndex.body1 ⟨(), (go% v, .ptr q) :: (go% i, .int (k : Int)) :: (0, .nil) :: nEnv h n⟩ =
        if x.label == r.label then .ret () [.heap h, .int (k : Int)] else .norm ⟨(), (go% v, .ptr q) :: (go% i, .int (k : Int)) :: (0, .nil) :: nEnv h n⟩ := by
      cases e : x.label == r.label <;> run_go [Src.node.getIndex.body1, node_ok hx, node_ok hr, e]
    have hk : (fun i c => ((.int ((k + (i + 1) : Nat) : Int), .ptr c) : Val × Val)) = fun (i : Nat) c => (.int ((k + 1 + i : Nat) : Int), .ptr c) := by
      funext i c; rw [Nat.add_assoc, Nat.add_comm i 1]
    rw [List.mapIdx_cons, rangeN, hk, List.findIdx?_cons, Nat.add_zero]
    simp only [hx]
    cases hl : x.label == r.label
    · rw [hl] at e
      cases hf : down.findIdx? fun d => match h[d]? with | some x => x.label == r.label | none => false with
      | none => rw [hf] at ih; run_go [Env.new, e, ih, Option.map_none]
      | some j => rw [hf] at ih; run_go [Env.new, e, ih, Option.map_some]; rw [Nat.add_assoc, Nat.add_comm 1 j]
    · rw [hl] at e
      run_go [Env.new, e, Nat.add_zero]

/-- `node.getIndex` -/
theorem run_getIndex (hh : Closed h) {n : Nat} (hn : n < h.length) :
    (jin fl).fn fuel (d + 1) (go% node.getIndex) sp [.heap h, .ptr n] =
    match h.getIndex n with
    | some i => .ok [.heap h, .int i]
    | none => .panic := by
  rw [fn_run (g := Src.node.getIndex) rfl]
  obtain ⟨r, hr⟩ := node_at hn
  cases hu : r.up with
  | none => run_go [Func.run, Src.node.getIndex, Src.node.getIndex.for1, bindParams, node_ok hr, hu, NHeap.getIndex, hr, Option.bind_none]
  | some u =>
    obtain ⟨x, hx⟩ := node_at ((hh n r hr).1 u hu)
    have e := getIndex_range (fl := fl) (fuel := fuel) (d := d) n r hr x.down 0 (hh u x hx).2
    simp only [Nat.zero_add] at e
    have hg : h.getIndex n = match x.down.findIdx? fun d => match h[d]? with | some x => x.label == r.label | none => false with
        | some i => some (i : Int)
        | none => some (-1) := by simp only [NHeap.getIndex, hr, hu, Option.bind_some, hx]; rfl
    rw [hg]
    cases hf : x.down.findIdx? fun d => match h[d]? with | some x => x.label == r.label | none => false with
    | none => rw [hf] at e; run_go [Func.run, Src.node.getIndex, Src.node.getIndex.for1, bindParams, node_ok hr, hu, node_ok hx, e]
    | some j => rw [hf] at e; run_go [Func.run, Src.node.getIndex, Src.node.getIndex.for1, bindParams, node_ok hr, hu, node_ok hx, e]

/-! ### deAttach -/

theorem deAttach_range (n : Nat) (r : NodeRec) (hr : h[n]? = some r) : ∀ (down : List Nat) (f : Nat → Val) (nd : List Nat), (∀ q ∈ down, q < h.length) →
    rangeN 0 (go% d) (fun s => exec (ctx fl fuel d) fuel Src.node.deAttach.body1 s) (down.mapIdx fun i c => (f i, .ptr c)) ⟨(), (go% newDown, .ptrs nd) :: (0, .nil) :: nEnv h n⟩ =
    .norm ⟨(), (go% newDown, .ptrs (nd ++ down.filter fun d => match h[d]? with | some x => x.label != r.label | none => false)) :: (0, .nil) :: nEnv h n⟩ := by
  intro down
  induction down with
  | nil => intro f nd _; simp [rangeN]
  | cons q down ih =>
    intro f nd hd
    obtain ⟨x, hx⟩ := node_at (hd q (List.mem_cons_self ..))
    have e : exec (ctx fl fuel d) fuel Src.node.deAttach.body1 ⟨(), (go% d, .ptr q) :: (0, .nil) :: (go% newDown, .ptrs nd) :: (0, .nil) :: nEnv h n⟩ =
        .norm ⟨(), (go% d, .ptr q) :: (0, .nil) :: (go% newDown, .ptrs (if x.label != r.label then nd ++ [q] else nd)) :: (0, .nil) :: nEnv h n⟩ := by
      cases e : x.label == r.label <;> run_go [Src.node.deAttach.body1, node_ok hx, node_ok hr, e, bne, Bool.not_false, Bool.not_true]
    have ih := ih (fun i => f (i + 1)) (if x.label != r.label then nd ++ [q] else nd) fun q hq => hd q (List.mem_cons_of_mem _ hq)
    rw [List.mapIdx_cons, rangeN, List.filter_cons]
    simp only [hx]
    cases hl : x.label != r.label
    · rw [hl] at e ih
      simp only [Bool.false_eq_true, if_false] at ih e
      run_go [Env.new, e, ih, Bool.false_eq_true]
    · rw [hl] at e ih
      simp only [if_true, List.append_assoc, List.singleton_append] at ih e
      run_go [Env.new, e, ih]

/-- `node.deAttach` -/
theorem run_deAttach (hh : Closed h) {n : Nat} (hn : n < h.length) :
    (jin fl).fn fuel (d + 1) (go% node.deAttach) sp [.heap h, .ptr n] =
    match h.deAttach n with
    | some h' => .ok [.heap h']
    | none => .panic := by
  rw [fn_run (g := Src.node.deAttach) rfl]
  obtain ⟨r, hr⟩ := node_at hn
  cases hu : r.up with
  | none => run_go [Func.run, Src.node.deAttach, Src.node.deAttach.for1, bindParams, node_ok hr, hu, NHeap.deAttach, hr]
  | some u =>
    obtain ⟨x, hx⟩ := node_at ((hh n r hr).1 u hu)
    cases hl : x.down.length == 0
    rotate_left
    · have hz : (x.down.length : Int) - 1 < 0 := by have := eq_of_beq hl; omega
      run_go [Func.run, Src.node.deAttach, Src.node.deAttach.for1, bindParams, node_ok hr, hu, node_ok hx, hz, NHeap.deAttach, hr, hx, hl]
    have hz : ¬ ((x.down.length : Int) - 1 < 0) := by have := ne_of_beq_false hl; omega
    have e := deAttach_range (fl := fl) (fuel := fuel) (d := d) n r hr x.down (fun i => .int i) [] (hh u x hx).2
    simp only [List.nil_append] at e
    have hs : ∀ l, List.set h u { x with down := l } = h.setDown u l := fun l => set_modify (fun r : NodeRec => { r with down := l }) hx
    run_go [Func.run, Src.node.deAttach, Src.node.deAttach.for1, bindParams, node_ok hr, hu, node_ok hx, hz, e, NHeap.deAttach, hr, hx, hs, hl]
    rfl

/-! ### insert -/

theorem relabel_down (k : Nat) : ∀ (l : List Nat) (i : Nat) (h : NHeap) (p : Nat), ((relabelP k i l h)[p]?).map NodeRec.down = (h[p]?).map NodeRec.down := by
  intro l
  induction l with
  | nil => intro i h p; rfl
  | cons q l ih =>
    intro i h p
    rw [relabelP, ih]
    split
    · simp only [NHeap.setLabel, List.getElem?_modify, Option.map_eq_map, Option.map_map]
      congr 1
      funext x
      simp only [Function.comp]
      split <;> rfl
    · rfl

theorem relabel_length (k : Nat) : ∀ (l : List Nat) (i : Nat) (h : NHeap), (relabelP k i l h).length = h.length := by
  intro l
  induction l with
  | nil => intro i h; rfl
  | cons q l ih => intro i h; rw [relabelP, ih]; split <;> simp

theorem relabel_closed (k : Nat) : ∀ (l : List Nat) (i : Nat) (h : NHeap), Closed h → Closed (relabelP k i l h) := by
  intro l
  induction l with
  | nil => intro i h hh; exact hh
  | cons q l ih =>
    intro i h hh
    rw [relabelP]
    refine ih _ _ ?_
    split
    · exact hh.setLabel _ _
    · exact hh

theorem relabel_skip (k : Nat) : ∀ (l : List Nat) (i : Nat) (h : NHeap), i ≤ k → relabelP k i l h = relabelP k k (l.drop (k - i)) h := by
  intro l
  induction l with
  | nil => intro i h _; simp [relabelP]
  | cons q l ih =>
    intro i h hi
    by_cases e : i = k
    · subst e; simp
    · rw [relabelP, if_neg (by omega), ih _ _ (by omega)]
      obtain ⟨m, hm⟩ : ∃ m, k - i = m + 1 := ⟨k - i - 1, by omega⟩
      rw [hm, List.drop_succ_cons, show k - (i + 1) = m by omega]

abbrev iEnv (h : NHeap) (n up : Nat) (index : Int) (i lend : Nat) : Env :=
  [(go% i, .int i), (0, .nil), (go% lend, .int lend), (0, .nil), (go% heap, .heap h), (go% n, .ptr n), (go% up, .ptr up), (go% index, .int index)]

theorem insert_body {l : List Nat} (hc : ∀ q ∈ l, q < h.length) (n up : Nat) (index : Int) {i : Nat} (hi : i < l.length) (hu : (h[up]?).map NodeRec.down = some l) :
    exec (ctx fl fuel (d + 1)) fuel Src.node.insert.body1 ⟨(), iEnv h n up index i l.length⟩ =
    .norm ⟨(), iEnv (h.setLabel l[i] (itoa ((i : Int) + 1))) n up index i l.length⟩ := by
  cases hr : h[up]? with
  | none => rw [hr] at hu; cases hu
  | some r =>
    rw [hr] at hu
    have hd : r.down = l := by simpa using hu
    have hx : r.down[i]? = some l[i] := by rw [hd]; exact List.getElem?_eq_getElem hi
    obtain ⟨x, hq⟩ := node_at (hc l[i] (List.getElem_mem hi))
    have hs : List.set h l[i] { x with label := itoa ((i : Int) + 1) } = h.setLabel l[i] (itoa ((i : Int) + 1)) :=
      set_modify (fun r : NodeRec => { r with label := itoa ((i : Int) + 1) }) hq
    run_go [Src.node.insert.body1, node_ok hr, idx_nat, hx, node_ok hq, hs]

theorem insert_loop {l : List Nat} {m : Nat} (hc : ∀ q ∈ l, q < m) (n up : Nat) (index : Int) (k : Nat) : ∀ (f i : Nat) (h : NHeap), k ≤ i → i ≤ l.length → h.length = m → (h[up]?).map NodeRec.down = some l → l.length - i < f →
    loopN (fun s => (eval (ctx fl fuel (d + 1)) s.env (.bin .lt (.var (go% i)) (.var (go% lend)))).bind Val.bool?)
      (fun s => exec (ctx fl fuel (d + 1)) fuel (.assign (go% i) (.bin .add (.var (go% i)) (.lit (.int 1)))) s)
      (fun s => exec (ctx fl fuel (d + 1)) fuel Src.node.insert.body1 s) f ⟨(), iEnv h n up index i l.length⟩ =
    .norm ⟨(), iEnv (relabelP k i (l.drop i) h) n up index l.length l.length⟩ := by
  intro f
  induction f with
  | zero => intro i h _ _ _ _ h; omega
  | succ f ih =>
    intro i h hk hi hm hu hf
    by_cases e : i < l.length
    · rw [loopN_goes (s := ⟨(), iEnv h n up index i l.length⟩) (by run_go [e, decide_true])
        (by rw [insert_body (h := h) (by rw [hm]; exact hc) n up index e hu]; rfl)]
      have := ih (i + 1) (h.setLabel l[i] (itoa ((i : Int) + 1))) (by omega) e (by simp [hm]) (by
        have := relabel_down 0 [l[i]] i h up
        rw [relabelP, relabelP, if_pos (Nat.zero_le _)] at this
        rw [this, hu]) (by omega)
      rw [List.drop_eq_getElem_cons e, relabelP, if_pos hk]
      run_go []
      exact this
    · have : i = l.length := by omega
      subst this
      rw [loopN_end (by run_go []; simp), List.drop_length]
      rfl

/-- `node.insert` -/
theorem run_insert (hh : Closed h) {n up : Nat} (hn : n < h.length) (hu : up < h.length) (index : Int) (hf : ∀ u, h[up]? = some u → u.down.length < fuel) :
    (jin fl).fn fuel (d + 2) (go% node.insert) sp [.heap h, .ptr n, .ptr up, .int index] =
    match h.insert n up index with
    | .ok h' => .ok [.heap h', .nil]
    | .err e => .ok [.heap h, .err e]
    | .panic => .panic := by
  rw [fn_run (g := Src.node.insert) rfl]
  obtain ⟨u, hr⟩ := node_at hu
  cases hl : u.down.length == 0
  rotate_left
  · run_go [Func.run, Src.node.insert, bindParams, node_ok hr, NHeap.insert, hr, hl, bne, Bool.not_true]
  have hf := hf u hr
  by_cases h1 : (u.down.length : Int) - 1 < index
  · run_go [Func.run, Src.node.insert, bindParams, node_ok hr, NHeap.insert, hr, hl, bne, Bool.not_false, h1, decide_true]
  by_cases h2 : index < 0
  · have hp : elem u.down index = .panic := by simp [elem, h2]
    have hz : decide (index < u.down.length) = true := by simp; omega
    have e : ∀ f, 0 < f → loopN (fun s => (eval (ctx fl fuel (d + 1)) s.env (.bin .lt (.var (go% i)) (.var (go% lend)))).bind Val.bool?)
        (fun s => exec (ctx fl fuel (d + 1)) fuel (.assign (go% i) (.bin .add (.var (go% i)) (.lit (.int 1)))) s)
        (fun s => exec (ctx fl fuel (d + 1)) fuel Src.node.insert.body1 s) f
        ⟨(), [(go% i, .int index), (0, .nil), (go% lend, .int u.down.length), (0, .nil), (go% heap, .heap h), (go% n, .ptr n), (go% up, .ptr up), (go% index, .int index)]⟩ = .panic := by
      intro f hf
      obtain ⟨f, rfl⟩ : ∃ g, f = g + 1 := ⟨f - 1, by omega⟩
      have hb : exec (ctx fl fuel (d + 1)) fuel Src.node.insert.body1
          ⟨(), [(go% i, .int index), (0, .nil), (go% lend, .int u.down.length), (0, .nil), (go% heap, .heap h), (go% n, .ptr n), (go% up, .ptr up), (go% index, .int index)]⟩ = .panic := by
        run_go [Src.node.insert.body1, node_ok hr, hp]
      rw [loopN_ends (by run_go [hz]) (by rw [hb]; rfl), hb]
    have e : exec (ctx fl fuel (d + 1)) fuel Src.node.insert.for1
        ⟨(), [(go% lend, .int u.down.length), (0, .nil), (go% heap, .heap h), (go% n, .ptr n), (go% up, .ptr up), (go% index, .int index)]⟩ = .panic := by
      run_go [Src.node.insert.for1]
      exact congrArg Res.leave (e fuel (by omega))
    run_go [Func.run, Src.node.insert, bindParams, node_ok hr, NHeap.insert, hr, hl, bne, Bool.not_false, h1, decide_false, h2, e]
  · obtain ⟨k, rfl⟩ := Int.eq_ofNat_of_zero_le (Int.not_lt.1 h2)
    have e := insert_loop (fl := fl) (fuel := fuel) (d := d) (hh up u hr).2 n up k k fuel k h (Nat.le_refl _) (by omega) rfl (by rw [hr]; rfl) (by omega)
    have hk : relabelP k 0 u.down h = relabelP k k (u.down.drop k) h := by rw [relabel_skip k u.down 0 h (Nat.zero_le _)]; simp
    obtain ⟨x, hx⟩ := node_at (h := relabelP k 0 u.down h) (p := n) (by rw [relabel_length]; exact hn)
    have s1 := set_modify (fun r : NodeRec => { r with label := itoa (k : Int) }) hx
    have hx2 : (NHeap.setLabel (relabelP k 0 u.down h) n (itoa (k : Int)))[n]? = some { x with label := itoa (k : Int) } := by
      simp [NHeap.setLabel, hx]
    have s2 := set_modify (fun r : NodeRec => { r with up := some up }) hx2
    rw [← hk] at e
    have e : exec (ctx fl fuel (d + 1)) fuel Src.node.insert.for1
        ⟨(), [(go% lend, .int u.down.length), (0, .nil), (go% heap, .heap h), (go% n, .ptr n), (go% up, .ptr up), (go% index, .int k)]⟩ =
        .norm ⟨(), [(go% lend, .int u.down.length), (0, .nil), (go% heap, .heap (relabelP k 0 u.down h)), (go% n, .ptr n), (go% up, .ptr up), (go% index, .int k)]⟩ := by
      run_go [Src.node.insert.for1]
      exact (congrArg Res.leave e).trans rfl
    have s1 : List.set (relabelP k 0 u.down h) n { x with label := itoa (k : Int) } = NHeap.setLabel (relabelP k 0 u.down h) n (itoa (k : Int)) := s1
    have s2 : List.set (NHeap.setLabel (relabelP k 0 u.down h) n (itoa (k : Int))) n { x with label := itoa (k : Int), up := some up } =
      NHeap.setUp (NHeap.setLabel (relabelP k 0 u.down h) n (itoa (k : Int))) n (some up) := s2
    run_go [Func.run, Src.node.insert, bindParams, node_ok hr, NHeap.insert, hr, hl, bne, Bool.not_false, h1, decide_false, h2, e, node_ok hx, s1, node_ok hx2, s2, Int.toNat_natCast]

end

end Jin.Go
