import Verif.Go.ParserNew
import Verif.Go.Text
/-!
# Go.Tree — `node.createTree`, `Parser.Tree` and `Parser.TreeFull` in the text
-/

namespace Jin.Go

section
variable {fl : FloatLib UInt64} {fuel d : Nat} {h : NHeap} {sp : Bool} {json : Bytes}

/-! ### `fmt.Sprintf` with the formats of createTree -/

theorem run_fmt (f : Bytes) (vs : List Val) {as : List FmtArg} {b : Bytes} (h1 : fmtArgs vs = some as) (h2 : sprintf f as = some b) :
    (jin fl).fn fuel (d + 1) (go% fmt.Sprintf) sp (.bytes f :: vs) = .ok [.bytes b] := by
  rw [fn_lib rfl]
  show (match (fmtArgs vs).bind (sprintf f) with | some b => R.ok [Val.bytes b] | none => R.stuck) = _
  rw [h1, Option.bind_some, h2]

theorem run_fmt1 (a l v : Bytes) : (jin fl).fn fuel (d + 1) (go% fmt.Sprintf) sp
    [.bytes [9, 37, 118, 32, 37, 45, 54, 118, 32, 58, 32, 37, 118, 10], .bytes a, .bytes l, .bytes v] =
    .ok [.bytes (9 :: (a ++ 32 :: (l ++ (pad6 l ++ 32 :: 58 :: 32 :: (v ++ [10])))))] :=
  run_fmt (as := [.text a, .text l, .text v]) _ _ rfl (by simp [sprintf, FmtArg.plain])

theorem run_fmt2 (a b l v : Bytes) : (jin fl).fn fuel (d + 1) (go% fmt.Sprintf) sp
    [.bytes [37, 118, 37, 118, 32, 37, 45, 54, 118, 32, 58, 32, 37, 118, 10], .bytes a, .bytes b, .bytes l, .bytes v] =
    .ok [.bytes (a ++ (b ++ 32 :: (l ++ (pad6 l ++ 32 :: 58 :: 32 :: (v ++ [10])))))] :=
  run_fmt (as := [.text a, .text b, .text l, .text v]) _ _ rfl (by simp [sprintf, FmtArg.plain])

theorem run_fmt3 (a l : Bytes) : (jin fl).fn fuel (d + 1) (go% fmt.Sprintf) sp
    [.bytes [9, 37, 118, 32, 37, 118, 10], .bytes a, .bytes l] = .ok [.bytes (9 :: (a ++ 32 :: (l ++ [10])))] :=
  run_fmt (as := [.text a, .text l]) _ _ rfl (by simp [sprintf, FmtArg.plain])

theorem run_fmt4 (a b l : Bytes) : (jin fl).fn fuel (d + 1) (go% fmt.Sprintf) sp
    [.bytes [37, 118, 37, 118, 32, 37, 118, 10], .bytes a, .bytes b, .bytes l] = .ok [.bytes (a ++ (b ++ 32 :: (l ++ [10])))] :=
  run_fmt (as := [.text a, .text b, .text l]) _ _ rfl (by simp [sprintf, FmtArg.plain])

/-! ### `createTree` -/

abbrev ctEnv (h : NHeap) (n : Nat) (json : Bytes) (depth : Nat) (b : Bool) (s : Bytes) : Env :=
  [(go% heap, .heap h), (go% n, .ptr n), (go% json, .bytes json), (go% depth, .int depth), (go% withValues, .bool b), (go% str, .bytes s)]

/-- The loop that makes the tabs. -/
theorem ct_tabs (n q : Nat) (depth : Nat) (b : Bool) (s : Bytes) (hf : depth < fuel) :
    exec (ctx fl fuel (d + 1)) fuel Src.node.createTree.for2 ⟨(), (go% tab, .bytes []) :: (0, .nil) :: (go% d, .ptr q) :: (0, .nil) :: ctEnv h n json depth b s⟩ =
    .norm ⟨(), (go% tab, .bytes (List.replicate (depth - 1) 9)) :: (0, .nil) :: (go% d, .ptr q) :: (0, .nil) :: ctEnv h n json depth b s⟩ := by
  have key : ∀ (m k : Nat), k + m = depth - 1 → ∀ f, m < f →
      loopN (fun s => (eval (ctx fl fuel (d + 1)) s.env (.bin .lt (.var (go% i)) (.bin .sub (.var (go% depth)) (.lit (.int 1))))).bind Val.bool?)
        (fun s => exec (ctx fl fuel (d + 1)) fuel (.assign (go% i) (.bin .add (.var (go% i)) (.lit (.int 1)))) s)
        (fun s => exec (ctx fl fuel (d + 1)) fuel Src.node.createTree.body2 s) f
        ⟨(), (go% i, .int k) :: (0, .nil) :: (go% tab, .bytes (List.replicate k 9)) :: (0, .nil) :: (go% d, .ptr q) :: (0, .nil) :: ctEnv h n json depth b s⟩ =
      .norm ⟨(), (go% i, .int (depth - 1 : Nat)) :: (0, .nil) :: (go% tab, .bytes (List.replicate (depth - 1) 9)) :: (0, .nil) :: (go% d, .ptr q) :: (0, .nil) :: ctEnv h n json depth b s⟩ := by
    intro m
    induction m with
    | zero =>
      intro k hk f hf
      obtain ⟨f, rfl⟩ : ∃ g, f = g + 1 := ⟨f - 1, by omega⟩
      have hk : k = depth - 1 := by omega
      subst hk
      have hc : ¬ (((depth - 1 : Nat) : Int) < (depth : Int) - 1) := by omega
      rw [loopN_end]
      run_go [hc, decide_false]
    | succ m ih =>
      intro k hk f hf
      obtain ⟨f, rfl⟩ : ∃ g, f = g + 1 := ⟨f - 1, by omega⟩
      have hc : (k : Int) < (depth : Int) - 1 := by omega
      have e := ih (k + 1) (by omega) f (by omega)
      rw [loopN_goes (t := ⟨(), (go% i, .int k) :: (0, .nil) :: (go% tab, .bytes (List.replicate (k + 1) 9)) :: (0, .nil) :: (go% d, .ptr q) :: (0, .nil) :: ctEnv h n json depth b s⟩)]
      · have : exec (ctx fl fuel (d + 1)) fuel (.assign (go% i) (.bin .add (.var (go% i)) (.lit (.int 1))))
            ⟨(), (go% i, .int k) :: (0, .nil) :: (go% tab, .bytes (List.replicate (k + 1) 9)) :: (0, .nil) :: (go% d, .ptr q) :: (0, .nil) :: ctEnv h n json depth b s⟩ =
            .norm ⟨(), (go% i, .int ((k + 1 : Nat) : Int)) :: (0, .nil) :: (go% tab, .bytes (List.replicate (k + 1) 9)) :: (0, .nil) :: (go% d, .ptr q) :: (0, .nil) :: ctEnv h n json depth b s⟩ := by
          run_go [Int.natCast_add, Int.natCast_one]
        rw [this]
        exact e
      · run_go [hc, decide_true]
      · have hr : List.replicate k (9 : UInt8) ++ [9] = List.replicate (k + 1) 9 := (List.replicate_succ' ..).symm
        run_go [Src.node.createTree.body2, hr]
  have e := key (depth - 1) 0 (by omega) fuel (by omega)
  simp only [List.replicate_zero] at e
  run_go [Src.node.createTree.for2]
  have e0 : ((0 : Nat) : Int) = 0 := rfl
  rw [e0] at e
  rw [e]
  run_go []

/-- One round of the loop. -/
theorem ct_body {n q : Nat} {r : NodeRec} (hr : h[q]? = some r) (depth : Nat) (b : Bool) (s below : Bytes) (hf : depth < fuel)
    (hv : r.down.length = 0 ∧ below = [] ∨ 0 < r.down.length ∧ ∀ s,
      (jin fl).fn fuel (d + 1) (go% node.createTree) false [.heap h, .ptr q, .bytes json, .int (depth + 1 : Nat), .bool b, .bytes s] = .ok [.heap h, .bytes (s ++ below)]) :
    exec (ctx fl fuel (d + 1)) fuel Src.node.createTree.body1 ⟨(), (go% d, .ptr q) :: (0, .nil) :: ctEnv h n json depth b s⟩ =
    .norm ⟨(), (go% d, .ptr q) :: (0, .nil) :: ctEnv h n json depth b (s ++ treeLine pad6 depth b r.label r.value ++ below)⟩ := by
  have ht := ct_tabs (fl := fl) (fuel := fuel) (d := d) (h := h) (json := json) n q depth b s hf
  have hz : (depth != 0) = !(depth == 0) := rfl
  have f1 := fun a => run_fmt1 (fl := fl) (fuel := fuel) (d := d) (sp := false) a r.label r.value
  have f2 := fun a b => run_fmt2 (fl := fl) (fuel := fuel) (d := d) (sp := false) a b r.label r.value
  have f3 := fun a => run_fmt3 (fl := fl) (fuel := fuel) (d := d) (sp := false) a r.label
  have f4 := fun a b => run_fmt4 (fl := fl) (fuel := fuel) (d := d) (sp := false) a b r.label
  rcases hv with ⟨h1, rfl⟩ | ⟨h1, h2⟩
  · have hl : ¬ (0 < (r.down.length : Int)) := by omega
    cases b <;> cases h0 : depth == 0 <;>
      run_go [Src.node.createTree.body1, ht, hz, h0, node_ok hr, f1, f2, f3, f4, hl, decide_false, treeLine, hookRune, dashRune, List.append_assoc, List.append_nil]
  · have hl : 0 < (r.down.length : Int) := by omega
    have h2 := fun s => h2 s
    simp only [Int.natCast_add, Int.natCast_one] at h2
    cases b <;> cases h0 : depth == 0 <;>
      run_go [Src.node.createTree.body1, ht, hz, h0, node_ok hr, f1, f2, f3, f4, hl, decide_true, h2, treeLine, hookRune, dashRune, List.append_assoc]

/-- The loop. -/
theorem ct_range (n : Nat) (depth : Nat) (b : Bool) (hf : depth < fuel) : ∀ (ds : List PTree) (f : Nat → Val) (s : Bytes), (∀ t ∈ ds, Here h (some n) t) →
    (∀ t ∈ ds, t.down ≠ [] → ∀ s, (jin fl).fn fuel (d + 1) (go% node.createTree) false [.heap h, .ptr t.ptr, .bytes json, .int (depth + 1 : Nat), .bool b, .bytes s] =
      .ok [.heap h, .bytes (s ++ t.erase.createTree pad6 (depth + 1) b)]) →
    rangeN 0 (go% d) (fun s => exec (ctx fl fuel (d + 1)) fuel Src.node.createTree.body1 s) ((ds.map PTree.ptr).mapIdx fun i c => (f i, .ptr c)) ⟨(), ctEnv h n json depth b s⟩ =
    .norm ⟨(), ctEnv h n json depth b (s ++ createTrees pad6 depth b (eraseL ds))⟩ := by
  intro ds
  induction ds with
  | nil =>
    intro f s _ _
    rw [eraseL, createTrees, List.append_nil]
    rfl
  | cons t ds ih =>
    intro f s hk hd
    have ht := hk t List.mem_cons_self
    have hfn := hd t List.mem_cons_self
    obtain ⟨q, l, v, kids⟩ := t
    obtain ⟨ht1, -⟩ := ht
    have hlen : (kids.map PTree.ptr).length = (eraseL kids).length := by rw [eraseL_map]; simp
    have hb := ct_body (fl := fl) (fuel := fuel) (d := d) (json := json) (n := n) ht1 depth b s
      (if (eraseL kids).length > 0 then Node.createTree pad6 (depth + 1) b (.mk l v (eraseL kids)) else []) hf (by
        simp only
        cases kids with
        | nil => exact .inl ⟨rfl, rfl⟩
        | cons k ks =>
          rw [if_pos (by rw [← hlen]; simp)]
          exact .inr ⟨by simp, hfn (by simp [PTree.down])⟩)
    have ih := ih (fun i => f (i + 1)) (s ++ treeLine pad6 depth b l v ++
      (if (eraseL kids).length > 0 then Node.createTree pad6 (depth + 1) b (.mk l v (eraseL kids)) else []))
      (fun t h => hk t (List.mem_cons_of_mem _ h)) fun t h => hd t (List.mem_cons_of_mem _ h)
    simp only at hb
    rw [List.map_cons, List.mapIdx_cons, rangeN, show (PTree.mk q l v kids).ptr = q from rfl]
    rw [eraseL, PTree.erase, createTrees]
    simp only [List.append_assoc] at ih hb ⊢
    rw [show Env.new (go% d) (.ptr q) (Env.new 0 (f 0) ((0, .nil) :: ctEnv h n json depth b s)) = (go% d, .ptr q) :: (0, .nil) :: ctEnv h n json depth b s from rfl, hb]
    exact ih

/-- `node.createTree` -/
theorem run_createTree (b : Bool) : ∀ (n : Nat) (t : PTree) (up : Option Nat) (depth dep : Nat) (sp : Bool) (s : Bytes), t.ptrs.length ≤ n → n + 1 ≤ depth → dep + n < fuel → Here h up t →
    (jin fl).fn fuel depth (go% node.createTree) sp [.heap h, .ptr t.ptr, .bytes json, .int dep, .bool b, .bytes s] =
      .ok [.heap h, .bytes (s ++ t.erase.createTree pad6 dep b)] := by
  intro n
  induction n with
  | zero => intro t _ _ _ _ _ hn; have := ptrs_pos t; omega
  | succ n ih =>
    intro t up depth dep sp s hn hd hf ht
    obtain ⟨d, rfl⟩ : ∃ d, depth = d + 2 := ⟨depth - 2, by omega⟩
    obtain ⟨q, l, v, kids⟩ := t
    have hk := hereL_iff.1 ht.2
    have hq := ht.1
    have e := ct_range (fl := fl) (fuel := fuel) (d := d) (h := h) (json := json) q dep b (by omega) kids (fun i => .int i) s hk (fun t htm _ s => by
      refine ih t (some q) (d + 1) (dep + 1) false s ?_ (by omega) (by omega) (hk t htm)
      have := kid_ptrs htm
      rw [PTree.ptrs, List.length_cons] at hn
      omega)
    rw [PTree.erase, Node.createTree, show (PTree.mk q l v kids).ptr = q from rfl, fn_run (g := Src.node.createTree) rfl]
    run_go [Func.run, Src.node.createTree, Src.node.createTree.for1, bindParams, node_ok hq, e]

end

/-- What `Tree` and `TreeFull` show of a parser that is a value. -/
def treeOf (full : Bool) (P : Parser) : Bytes := if full then P.TreeFull pad6 else P.Tree

mutual
theorem Node.createTree_pad (pad : Bytes → Bytes) (depth : Nat) : ∀ n : Node, n.createTree pad depth false = n.createTree (fun _ => []) depth false
  | .mk _ _ down => by rw [Node.createTree, Node.createTree, createTrees_pad pad depth down]
theorem createTrees_pad (pad : Bytes → Bytes) (depth : Nat) : ∀ l : List Node, createTrees pad depth false l = createTrees (fun _ => []) depth false l
  | [] => by rw [createTrees, createTrees]
  | .mk l v down :: ds => by
    rw [createTrees, createTrees, createTrees_pad pad depth ds, Node.createTree_pad pad (depth + 1) (.mk l v down)]
    rfl
end

/-- `Parser.Tree` and `Parser.TreeFull` -/
theorem text_Parser_Tree (fl : FloatLib UInt64) (full : Bool) {h : NHeap} {p : ParserP} {P : Parser} {up : Option Nat} {t : PTree} (hr : Rep h p P up t) :
    Call1 fl (if full then go% Parser.TreeFull else go% Parser.Tree) [.heap h, .ptr p.core, .bytes p.json]
      (.ok [.heap h, .ptr p.core, .bytes p.json, .bytes (treeOf full P)]) :=
  Call1.of t.ptrs.length (t.ptrs.length + 3) fun fuel d hf => by
    have e := fun b => run_createTree (fl := fl) (fuel := fuel) (h := h) (json := p.json) b t.ptrs.length t up (d + t.ptrs.length + 2) 0 false []
      (Nat.le_refl _) (by omega) (by omega) hr.holds.here
    simp only [← hr.core, hr.erase, List.nil_append] at e
    have e0 : ((0 : Nat) : Int) = 0 := rfl
    rw [e0] at e
    cases full with
    | true =>
      simp only [if_true]
      rw [show d + (t.ptrs.length + 3) = (d + t.ptrs.length + 2) + 1 from by omega, fn_run (g := Src.Parser.TreeFull) rfl]
      run_go [Func.run, Src.Parser.TreeFull, bindParams, e, treeOf, Parser.TreeFull]
    | false =>
      simp only [Bool.false_eq_true, if_false]
      rw [show d + (t.ptrs.length + 3) = (d + t.ptrs.length + 2) + 1 from by omega, fn_run (g := Src.Parser.Tree) rfl]
      have ep := Node.createTree_pad pad6 0 P.core
      run_go [Func.run, Src.Parser.Tree, bindParams, e, treeOf, Parser.Tree, ep]

end Jin.Go
