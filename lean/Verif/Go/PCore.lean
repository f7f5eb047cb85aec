import Verif.Go.Heap
import Verif.Go.Set
import Verif.Go.Iter
import Verif.Go.Keys
/-!
# Go.PCore — `pCore` of the text is `pCoreP` of the model
-/

namespace Jin.Go

section loops
variable {W σ τ ρ : Type}

/-- How a round may end, for a text with variables of its own: `E i s q` is the state of the text for the index `i`, the
state `s` of the model and the rest `q`. -/
def SimX (E : Nat → σ → τ → St W) (conv : ρ → Res W) (P : Nat → σ → τ → Prop) (i : Nat) (r : Res W) : Ctl σ ρ → Prop
  | .next s => ∃ q, r.goes = some (E i s q) ∧ P (i + 1) s q
  | .ret x => r = conv x
  | _ => False

theorem loop_forUpX {c : St W → R Bool} {post body : St W → Res W} {hi : Nat} {b : Nat → σ → Ctl σ ρ}
    (E : Nat → σ → τ → St W) (conv : ρ → Res W) (P : Nat → σ → τ → Prop)
    (hc : ∀ i s q, c (E i s q) = .ok (decide (i < hi)))
    (hp : ∀ i s q, post (E i s q) = .norm (E (i + 1) s q))
    (hconv : ∀ r, (conv r).ends = true)
    (hb : ∀ i s q, i < hi → P i s q → SimX E conv P i (body (E i s q)) (b i s)) :
    ∀ n i s q, P i s q → hi - i < n →
      match forUp hi b i s with
      | .done s' => ∃ j q', loopN c post body n (E i s q) = .norm (E j s' q') ∧ P j s' q'
      | .ret x => loopN c post body n (E i s q) = conv x := by
  intro n
  induction n with
  | zero => intro i s q _ h; omega
  | succ n ih =>
    intro i s q hP hn
    rw [forUp]
    by_cases hi' : i < hi
    · have hb := hb i s q hi' hP
      have hct : c (E i s q) = .ok true := by rw [hc]; simp [hi']
      rw [if_pos hi']
      cases hx : b i s with
      | next s' =>
        rw [hx] at hb
        obtain ⟨q', h1, h2⟩ := hb
        rw [loopN_goes hct h1, hp]
        exact ih _ _ _ h2 (by omega)
      | goto j s' => rw [hx] at hb; exact hb.elim
      | brk s' => rw [hx] at hb; exact hb.elim
      | ret r =>
        rw [hx] at hb
        have hb : body (E i s q) = conv r := hb
        show loopN c post body (n + 1) (E i s q) = conv r
        rw [loopN_ends hct (by rw [hb]; exact hconv r), hb]
    · rw [if_neg hi']
      have hct : c (E i s q) = .ok false := by rw [hc]; simp [hi']
      exact ⟨i, q, loopN_end hct, hP⟩

end loops

/-- The variables of `pCore` that the model has in another form: its stacks, the key (`nil` at first), and `last` (a byte, or a constant). -/
structure PcX where
  braces : Seq
  idxs : Seq
  key : Val
  last : Val

abbrev pEnv (json : Bytes) (s : PcP) (q : PcX) : Env :=
  [(go% isJSONChar, .bools (tbl true true)), (go% chars, .bytes [34, 44, 58, 91, 93, 123, 125]), (go% last, q.last),
    (go% valStart, .int s.valStart), (go% key, q.key), (go% «end», .int s.stop), (go% start, .int s.start),
    (go% indexList.length, .int q.idxs.length), (go% indexList.index, .int q.idxs.index), (go% indexList.list, .ints q.idxs.list),
    (go% braceList.length, .int q.braces.length), (go% braceList.index, .int q.braces.index), (go% braceList.list, .ints q.braces.list),
    (go% inQuote, .bool s.inQuote), (go% lenj, .int json.length), (0, .nil),
    (go% heap, .heap s.heap), (go% json, .bytes json), (go% core, ptrVal s.core)]

/-- The text and the model agree; the memory is closed and has at least `m` nodes. -/
structure PcOk (m : Nat) (s : PcP) (q : PcX) : Prop where
  closed : Closed s.heap
  core : ∀ c, s.core = some c → c < s.heap.length
  braces : q.braces.Holds (s.braces.map Int.ofNat)
  idxs : q.idxs.Holds (s.idxs.map Int.ofNat)
  key : q.key = .bytes s.key ∨ (q.key = .nil ∧ s.key = [])
  last : ∀ n : Nat, n < 256 → Val.eq q.last (.int n) = .ok (s.last == UInt8.ofNat n)
  grows : m ≤ s.heap.length

section
variable {fl : FloatLib UInt64} {fuel d m : Nat} {json : Bytes}

theorem run_key (sp : Bool) {v : Val} {key : Bytes} (h : v = .bytes key ∨ (v = .nil ∧ key = [])) :
    (jin fl).fn fuel (d + 1) (go% byteArrayToString) sp [v] = .ok [.bytes key] := by
  rcases h with rfl | ⟨rfl, rfl⟩ <;> rfl

theorem pCore_for4 (hf : json.length < fuel) {i : Nat} (hi : i ≤ json.length) (c : UInt8) (s : PcP) (q : PcX) :
    exec (ctx fl fuel (d + 1)) fuel Src.pCore.for4
      ⟨(), (go% curr, .byte c) :: (0, .nil) :: (go% i, .int i) :: (0, .nil) :: pEnv json s q⟩ =
    match quoteScan json i i with
    | .real => .norm ⟨(), (go% curr, .byte c) :: (0, .nil) :: (go% i, .int i) :: (0, .nil) :: pEnv json { s with inQuote := !s.inQuote } q⟩
    | .escaped => .jump (go% cont) ⟨(), (go% curr, .byte c) :: (0, .nil) :: (go% i, .int i) :: (0, .nil) :: pEnv json s q⟩
    | .off => .norm ⟨(), (go% curr, .byte c) :: (0, .nil) :: (go% i, .int i) :: (0, .nil) :: pEnv json s q⟩ := by
  run_go [Src.pCore.for4]
  refine loop_quote (json := json) (i := i) (fun n => ⟨(), (go% n, .int n) :: (0, .nil) :: (go% curr, .byte c) :: (0, .nil) ::
      (go% i, .int i) :: (0, .nil) :: pEnv json s q⟩) _ _ _
      ?_ ?_ ?_ ?_ hi fuel i (Nat.le_refl i) (by omega)
  · intro n; run_go []
  · intro n; run_go []
  · intro n; rfl
  · intro n ch hn hc
    cases h1 : ch == 92 <;> cases h2 : (i - n) % 2 == 0 <;> run_go [Src.pCore.body4, hc, h1, land_sub hn, h2]


/-- `newNode := &node{…}; core.down = append(core.down, newNode)` -/
theorem add_new {h : NHeap} {c : Nat} {r x : NodeRec} (hr : h[c]? = some r) :
    (h ++ [x])[c]? = some r ∧ (h ++ [x]).set c { r with down := r.down ++ [h.length] } = NHeap.addDown (h ++ [x]) c h.length := by
  have e : (h ++ [x])[c]? = some r := by
    rw [List.getElem?_append_left (List.getElem?_eq_some_iff.1 hr).1]; exact hr
  exact ⟨e, set_modify (fun r : NodeRec => { r with down := r.down ++ [h.length] }) e⟩

section labels
variable (heap : NHeap) (core : Option Nat) (braces idxs : List Nat) (inQuote : Bool) (start stop : Nat) (key : Bytes) (valStart n : Nat) (last : UInt8)

theorem label_key (h : (last == 58) = true) : PcP.label ⟨heap, core, braces, idxs, inQuote, start, stop, key, valStart, last⟩ = some key := by
  simp only [PcP.label, h, if_true]
theorem label_idx (h : (last == 58) = false) :
    PcP.label ⟨heap, core, braces, n :: idxs, inQuote, start, stop, key, valStart, last⟩ = some (itoa (n : Int)) := by
  simp only [PcP.label, h, Bool.false_eq_true, if_false]; rfl
theorem label_none (h : (last == 58) = false) :
    PcP.label ⟨heap, core, braces, [], inQuote, start, stop, key, valStart, last⟩ = none := by
  simp only [PcP.label, h, Bool.false_eq_true, if_false]; rfl

end labels

/-- The memory after a new child. -/
theorem child_ok {h : NHeap} {c m : Nat} {l v : Bytes} (hh : Closed h) (hc : c < h.length) (hm : m ≤ h.length) :
    Closed (NHeap.addDown (h ++ [⟨l, v, some c, []⟩]) c h.length) ∧ h.length < (NHeap.addDown (h ++ [⟨l, v, some c, []⟩]) c h.length).length ∧
      m ≤ (NHeap.addDown (h ++ [⟨l, v, some c, []⟩]) c h.length).length := by
  refine ⟨Closed.addDown (hh.new (fun u e => by cases e; exact hc) (fun d hd => by cases hd)) c (by simp), ?_, ?_⟩ <;>
    rw [length_addDown] <;> simp <;> omega

theorem close_up {h : NHeap} {a : Nat} (v : Bytes) (ha : a < h.length) :
    ∃ r, h[a]? = some r ∧ List.set h a { r with value := v } = h.setValue a v ∧ (h.setValue a v)[a]? = some { r with value := v } := by
  obtain ⟨r, hr⟩ := node_at ha
  refine ⟨r, hr, set_modify (fun r : NodeRec => { r with value := v }) hr, ?_⟩
  simp [NHeap.setValue, hr]

/-- The rest of the case of a closing bracket. -/
theorem closed_up {h : NHeap} {a : Nat} {v : Bytes} {r : NodeRec} (hh : Closed h) (hr : h[a]? = some r) :
    ∀ x, r.up = some x → x < (h.setValue a v).length := fun x hx => by
  rw [length_setValue]; exact (hh a r hr).1 x hx

theorem last_byte (c : UInt8) (n : Nat) (hn : n < 256) : Val.eq (.byte c) (.int n) = .ok (c == UInt8.ofNat n) := by
  rw [eq_byte_int, byteOf, if_pos ⟨by omega, by omega⟩]; rfl

theorem last_int (m : Nat) (hm : m < 256) (n : Nat) (hn : n < 256) : Val.eq (.int m) (.int n) = .ok (UInt8.ofNat m == UInt8.ofNat n) := by
  rw [eq_int]
  congr 1
  rw [Bool.eq_iff_iff, beq_iff_eq, beq_iff_eq]
  constructor
  · intro h; have : m = n := by omega
    rw [this]
  · intro h
    have := congrArg UInt8.toNat h
    rw [UInt8.toNat_ofNat_of_lt' hm, UInt8.toNat_ofNat_of_lt' hn] at this
    rw [this]

theorem pCore_body3 (hf : json.length < fuel) {i : Nat} (hi : i < json.length) (s : PcP) (q : PcX) (h : PcOk m s q) :
    SimX (fun i s q => ⟨(), (go% i, .int i) :: (0, .nil) :: pEnv json s q⟩) (fun _ => .panic) (fun _ => PcOk m) i
      (exec (ctx fl fuel (d + 1)) fuel Src.pCore.body3 ⟨(), (go% i, .int i) :: (0, .nil) :: pEnv json s q⟩) (pcBodyP json i s) := by
  obtain ⟨c, hc⟩ := getElem?_of_lt hi
  obtain ⟨hClosed, hcore, hb, hx, hk, hl, hm⟩ := h
  obtain ⟨heap, core, braces, idxs, inQuote, start, stop, key, valStart, last⟩ := s
  obtain ⟨qb, qx, qk, ql⟩ := q
  simp only at hClosed hcore hb hx hk hl hm
  have l58 : Val.eq ql (.int 58) = .ok (last == 58) := hl 58 (by decide)
  have l44 : Val.eq ql (.int 44) = .ok (last == 44) := hl 44 (by decide)
  have l91 : Val.eq ql (.int 91) = .ok (last == 91) := hl 91 (by decide)
  cases h0 : isJSONChar true true c
  · run_go [pcBodyP, Src.pCore.body3, hc, h0, SimX]
    exact ⟨⟨qb, qx, qk, ql⟩, rfl, hClosed, hcore, hb, hx, hk, hl, hm⟩
  cases h1 : c == 34
  rotate_left
  · cases inQuote
    · run_go [pcBodyP, Src.pCore.body3, hc, h0, h1, SimX]
      exact ⟨⟨qb, qx, qk, ql⟩, rfl, hClosed, hcore, hb, hx, hk, hl, hm⟩
    · have e4 := pCore_for4 (fl := fl) (d := d) hf (Nat.le_of_lt hi) c ⟨heap, core, braces, idxs, true, start, stop, key, valStart, last⟩ ⟨qb, qx, qk, ql⟩
      cases h2 : quoteScan json i i <;> rw [h2] at e4 <;>
        run_go [pcBodyP, Src.pCore.body3, hc, h0, h1, SimX, e4, h2] <;>
        exact ⟨⟨qb, qx, qk, ql⟩, rfl, hClosed, hcore, hb, hx, hk, hl, hm⟩
  cases inQuote
  rotate_left
  · run_go [pcBodyP, Src.pCore.body3, hc, h0, h1, SimX]
    exact ⟨⟨qb, qx, qk, ql⟩, rfl, hClosed, hcore, hb, hx, hk, hl, hm⟩
  cases h2 : c == 91 || c == 123
  rotate_left
  · obtain ⟨qb', p1, p2⟩ := Seq.push_holds hb (i : Int)
    obtain ⟨qx', p3, p4⟩ := Seq.push_holds hx 0
    have e1 := run_push fl fuel d false qb i
    have e2 := run_push fl fuel d false qx 0
    have e3 := run_last fl fuel d false qx
    rw [p1] at e1
    rw [p3] at e2
    cases h3 : last == 58
    · cases idxs with
      | nil =>
        rw [Seq.last_empty hx] at e3
        run_go [pcBodyP, Src.pCore.body3, hc, h0, h1, h2, SimX, label_none _ _ _ _ _ _ _ _ _ h3, l58, h3, e3]
      | cons n idxs =>
        rw [Seq.last_holds hx] at e3
        cases core with
        | none =>
          run_go [pcBodyP, Src.pCore.body3, hc, h0, h1, h2, SimX, label_idx _ _ _ _ _ _ _ _ _ n _ h3, l58, h3, e1, e2, e3, PcP.child, NHeap.new]
        | some a =>
          have ha := hcore a rfl
          obtain ⟨r, hr⟩ := node_at ha
          obtain ⟨n1, n2⟩ := add_new (x := ⟨itoa (n : Int), [], some a, []⟩) hr
          run_go [pcBodyP, Src.pCore.body3, hc, h0, h1, h2, SimX, label_idx _ _ _ _ _ _ _ _ _ n _ h3, l58, h3, e1, e2, e3, PcP.child, NHeap.new,
            node_ok n1, n2, Int.ofNat_eq_natCast]
          obtain ⟨c1, c2, c3⟩ := child_ok (l := itoa (n : Int)) (v := []) hClosed ha hm
          exact ⟨⟨qb', qx', qk, .byte c⟩, rfl, c1, fun x hx => by cases hx; exact c2, p2, p4, hk, last_byte c, c3⟩
    · cases core with
      | none =>
        run_go [pcBodyP, Src.pCore.body3, hc, h0, h1, h2, SimX, label_key _ _ _ _ _ _ _ _ _ _ h3, l58, h3, e1, e2, PcP.child, NHeap.new, run_key _ hk]
      | some a =>
        have ha := hcore a rfl
        obtain ⟨r, hr⟩ := node_at ha
        obtain ⟨n1, n2⟩ := add_new (x := ⟨key, [], some a, []⟩) hr
        run_go [pcBodyP, Src.pCore.body3, hc, h0, h1, h2, SimX, label_key _ _ _ _ _ _ _ _ _ _ h3, l58, h3, e1, e2, PcP.child, NHeap.new, run_key _ hk,
          node_ok n1, n2]
        obtain ⟨c1, c2, c3⟩ := child_ok (l := key) (v := []) hClosed ha hm
        exact ⟨⟨qb', qx', qk, .byte c⟩, rfl, c1, fun x hx => by cases hx; exact c2, p2, p4, hk, last_byte c, c3⟩
  cases h4 : c == 93 || c == 125
  rotate_left
  · have e3 := run_last fl fuel d false qx
    have e5 := run_pop fl fuel d false qb
    have e6 := run_pop fl fuel d false qx
    cases h3 : last == 58
    · cases h7 : last == 44
      · cases core with
        | none =>
          cases braces with
          | nil =>
            rw [Seq.pop_empty hb] at e5
            run_go [pcBodyP, Src.pCore.body3, hc, h0, h1, h2, h4, SimX, l58, l44, h3, h7, e5]
          | cons b braces =>
            obtain ⟨qb', p1, p2⟩ := Seq.pop_holds hb
            rw [p1] at e5
            rcases slice_cases json b ((i : Int) + 1) with ⟨w, hw⟩ | hw <;>
              run_go [pcBodyP, Src.pCore.body3, hc, h0, h1, h2, h4, SimX, l58, l44, h3, h7, e5, hw, Int.ofNat_eq_natCast]
        | some a =>
          have ha := hcore a rfl
          cases braces with
          | nil =>
            rw [Seq.pop_empty hb] at e5
            run_go [pcBodyP, Src.pCore.body3, hc, h0, h1, h2, h4, SimX, l58, l44, h3, h7, e5]
          | cons b braces =>
            obtain ⟨qb', p1, p2⟩ := Seq.pop_holds hb
            rw [p1] at e5
            rcases slice_cases json b ((i : Int) + 1) with ⟨w, hw⟩ | hw
            rotate_left
            · run_go [pcBodyP, Src.pCore.body3, hc, h0, h1, h2, h4, SimX, l58, l44, h3, h7, e5, hw, Int.ofNat_eq_natCast]
            obtain ⟨r', r1, r2, r3⟩ := close_up w ha
            cases idxs with
            | nil =>
              rw [Seq.pop_empty hx] at e6
              run_go [pcBodyP, Src.pCore.body3, hc, h0, h1, h2, h4, SimX, l58, l44, h3, h7, e5, e6, hw, Int.ofNat_eq_natCast, node_ok r1, r2, r3, node_ok r3, Option.bind_some]
            | cons n idxs =>
              obtain ⟨qx', p3, p4⟩ := Seq.pop_holds hx
              rw [p3] at e6
              run_go [pcBodyP, Src.pCore.body3, hc, h0, h1, h2, h4, SimX, l58, l44, h3, h7, e5, e6, hw, Int.ofNat_eq_natCast, node_ok r1, r2, r3, node_ok r3, Option.bind_some]
              exact ⟨⟨qb', qx', qk, .byte c⟩, rfl, Closed.setValue hClosed a w, closed_up hClosed r1, p2, p4, hk, last_byte c, by rw [length_setValue]; exact hm⟩
      · cases idxs with
        | nil =>
          rw [Seq.last_empty hx] at e3
          rcases slice_cases json valStart i with ⟨v, hv⟩ | hv <;>
            run_go [pcBodyP, Src.pCore.body3, hc, h0, h1, h2, h4, SimX, l58, l44, h3, h7, e3, PcP.leaf, label_none _ _ _ _ _ _ _ _ _ h3, hv, Option.map_none]
        | cons n idxs =>
          rw [Seq.last_holds hx] at e3
          rcases slice_cases json valStart i with ⟨v, hv⟩ | hv
          rotate_left
          · run_go [pcBodyP, Src.pCore.body3, hc, h0, h1, h2, h4, SimX, l58, l44, h3, h7, e3, PcP.leaf, hv, Option.map_none]
          cases core with
          | none =>
            run_go [pcBodyP, Src.pCore.body3, hc, h0, h1, h2, h4, SimX, l58, l44, h3, h7, e3, PcP.leaf, hv, PcP.child, label_idx _ _ _ _ _ _ _ _ _ n _ h3, Option.map_none]
          | some a =>
            have ha := hcore a rfl
            obtain ⟨r, hr⟩ := node_at ha
            obtain ⟨n1, n2⟩ := add_new (x := ⟨itoa (n : Int), v, some a, []⟩) hr
            obtain ⟨c1, c2, c3⟩ := child_ok (l := itoa (n : Int)) (v := v) hClosed ha hm
            cases braces with
            | nil =>
              rw [Seq.pop_empty hb] at e5
              run_go [pcBodyP, Src.pCore.body3, hc, h0, h1, h2, h4, SimX, l58, l44, h3, h7, e3, PcP.leaf, hv, PcP.child, NHeap.new, label_idx _ _ _ _ _ _ _ _ _ n _ h3, Option.map_some, Int.ofNat_eq_natCast, node_ok n1, n2, e5]
            | cons b braces =>
              obtain ⟨qb', p1, p2⟩ := Seq.pop_holds hb
              rw [p1] at e5
              rcases slice_cases json b ((i : Int) + 1) with ⟨w, hw⟩ | hw
              rotate_left
              · run_go [pcBodyP, Src.pCore.body3, hc, h0, h1, h2, h4, SimX, l58, l44, h3, h7, e3, PcP.leaf, hv, PcP.child, NHeap.new, label_idx _ _ _ _ _ _ _ _ _ n _ h3, Option.map_some, Int.ofNat_eq_natCast, node_ok n1, n2, e5, hw, Int.ofNat_eq_natCast]
              obtain ⟨r', r1, r2, r3⟩ := close_up w (Nat.lt_trans ha c2)
              obtain ⟨qx', p3, p4⟩ := Seq.pop_holds hx
              rw [p3] at e6
              run_go [pcBodyP, Src.pCore.body3, hc, h0, h1, h2, h4, SimX, l58, l44, h3, h7, e3, PcP.leaf, hv, PcP.child, NHeap.new, label_idx _ _ _ _ _ _ _ _ _ n _ h3, Option.map_some, Int.ofNat_eq_natCast, node_ok n1, n2, e5, e6, hw, Int.ofNat_eq_natCast, node_ok r1, r2, r3, node_ok r3, Option.bind_some]
              exact ⟨⟨qb', qx', qk, .byte c⟩, rfl, Closed.setValue c1 a w, closed_up c1 r1, p2, p4, hk, last_byte c, by rw [length_setValue]; exact c3⟩
    · rcases slice_cases json valStart i with ⟨v, hv⟩ | hv
      rotate_left
      · run_go [pcBodyP, Src.pCore.body3, hc, h0, h1, h2, h4, SimX, l58, l44, h3, PcP.leaf, hv, run_key _ hk, Option.map_none]
      cases core with
      | none =>
        run_go [pcBodyP, Src.pCore.body3, hc, h0, h1, h2, h4, SimX, l58, l44, h3, PcP.leaf, hv, run_key _ hk, PcP.child, label_key _ _ _ _ _ _ _ _ _ _ h3, Option.map_none]
      | some a =>
        have ha := hcore a rfl
        obtain ⟨r, hr⟩ := node_at ha
        obtain ⟨n1, n2⟩ := add_new (x := ⟨key, v, some a, []⟩) hr
        obtain ⟨c1, c2, c3⟩ := child_ok (l := key) (v := v) hClosed ha hm
        cases braces with
        | nil =>
          rw [Seq.pop_empty hb] at e5
          run_go [pcBodyP, Src.pCore.body3, hc, h0, h1, h2, h4, SimX, l58, l44, h3, PcP.leaf, hv, PcP.child, NHeap.new, label_key _ _ _ _ _ _ _ _ _ _ h3, Option.map_some, run_key _ hk, node_ok n1, n2, e5]
        | cons b braces =>
          obtain ⟨qb', p1, p2⟩ := Seq.pop_holds hb
          rw [p1] at e5
          rcases slice_cases json b ((i : Int) + 1) with ⟨w, hw⟩ | hw
          rotate_left
          · run_go [pcBodyP, Src.pCore.body3, hc, h0, h1, h2, h4, SimX, l58, l44, h3, PcP.leaf, hv, PcP.child, NHeap.new, label_key _ _ _ _ _ _ _ _ _ _ h3, Option.map_some, run_key _ hk, node_ok n1, n2, e5, hw, Int.ofNat_eq_natCast]
          obtain ⟨r', r1, r2, r3⟩ := close_up w (Nat.lt_trans ha c2)
          cases idxs with
          | nil =>
            rw [Seq.pop_empty hx] at e6
            run_go [pcBodyP, Src.pCore.body3, hc, h0, h1, h2, h4, SimX, l58, l44, h3, PcP.leaf, hv, PcP.child, NHeap.new, label_key _ _ _ _ _ _ _ _ _ _ h3, Option.map_some, run_key _ hk, node_ok n1, n2, e5, e6, hw, Int.ofNat_eq_natCast, node_ok r1, r2, r3, node_ok r3, Option.bind_some]
          | cons n idxs =>
            obtain ⟨qx', p3, p4⟩ := Seq.pop_holds hx
            rw [p3] at e6
            run_go [pcBodyP, Src.pCore.body3, hc, h0, h1, h2, h4, SimX, l58, l44, h3, PcP.leaf, hv, PcP.child, NHeap.new, label_key _ _ _ _ _ _ _ _ _ _ h3, Option.map_some, run_key _ hk, node_ok n1, n2, e5, e6, hw, Int.ofNat_eq_natCast, node_ok r1, r2, r3, node_ok r3, Option.bind_some]
            exact ⟨⟨qb', qx', qk, .byte c⟩, rfl, Closed.setValue c1 a w, closed_up c1 r1, p2, p4, hk, last_byte c, by rw [length_setValue]; exact c3⟩
  cases h5 : c == 58
  rotate_left
  · rcases slice_cases json start stop with ⟨v, hv⟩ | hv
    · run_go [pcBodyP, Src.pCore.body3, hc, h0, h1, h2, h4, h5, SimX, hv]
      exact ⟨⟨qb, qx, .bytes v, .int 58⟩, rfl, hClosed, hcore, hb, hx, .inl rfl, last_int 58 (by decide), hm⟩
    · run_go [pcBodyP, Src.pCore.body3, hc, h0, h1, h2, h4, h5, SimX, hv]
  cases h6 : c == 44
  · run_go [pcBodyP, Src.pCore.body3, hc, h0, h1, h2, h4, h5, h6, SimX]
    exact ⟨⟨qb, qx, qk, ql⟩, rfl, hClosed, hcore, hb, hx, hk, hl, hm⟩
  · have e3 := run_last fl fuel d false qx
    have e4 := run_inc fl fuel d false qx
    cases h3 : last == 58
    · cases h7 : last == 44 || last == 91
      · cases idxs with
        | nil =>
          rw [Seq.inc_empty hx] at e4
          run_go [pcBodyP, Src.pCore.body3, hc, h0, h1, h2, h4, h5, h6, SimX, l58, l44, l91, h3, h7, e4]
        | cons n idxs =>
          obtain ⟨qx', p1, p2⟩ := Seq.inc_holds hx
          rw [p1] at e4
          run_go [pcBodyP, Src.pCore.body3, hc, h0, h1, h2, h4, h5, h6, SimX, l58, l44, l91, h3, h7, e4]
          exact ⟨⟨qb, qx', qk, .int 44⟩, rfl, hClosed, hcore, hb, p2, hk, last_int 44 (by decide), hm⟩
      · cases idxs with
        | nil =>
          rw [Seq.last_empty hx] at e3
          rcases slice_cases json valStart i with ⟨v, hv⟩ | hv <;>
            run_go [pcBodyP, Src.pCore.body3, hc, h0, h1, h2, h4, h5, h6, SimX, l58, l44, l91, h3, h7, e3, PcP.leaf, label_none _ _ _ _ _ _ _ _ _ h3, hv]
        | cons n idxs =>
          obtain ⟨qx', p1, p2⟩ := Seq.inc_holds hx
          rw [p1] at e4
          rw [Seq.last_holds hx] at e3
          rcases slice_cases json valStart i with ⟨v, hv⟩ | hv
          rotate_left
          · run_go [pcBodyP, Src.pCore.body3, hc, h0, h1, h2, h4, h5, h6, SimX, l58, l44, l91, h3, h7, e3, PcP.leaf, hv]
          cases core with
          | none =>
            run_go [pcBodyP, Src.pCore.body3, hc, h0, h1, h2, h4, h5, h6, SimX, l58, l44, l91, h3, h7, e3, PcP.leaf, hv, PcP.child, NHeap.new,
              label_idx _ _ _ _ _ _ _ _ _ n _ h3, Option.map_none]
          | some a =>
            have ha := hcore a rfl
            obtain ⟨r, hr⟩ := node_at ha
            obtain ⟨n1, n2⟩ := add_new (x := ⟨itoa (n : Int), v, some a, []⟩) hr
            run_go [pcBodyP, Src.pCore.body3, hc, h0, h1, h2, h4, h5, h6, SimX, l58, l44, l91, h3, h7, e3, e4, PcP.leaf, hv, PcP.child, NHeap.new,
              label_idx _ _ _ _ _ _ _ _ _ n _ h3, Option.map_some, node_ok n1, n2, Int.ofNat_eq_natCast]
            obtain ⟨c1, c2, c3⟩ := child_ok (l := itoa (n : Int)) (v := v) hClosed ha hm
            exact ⟨⟨qb, qx', qk, .int 44⟩, rfl, c1, fun x hx => by cases hx; exact Nat.lt_trans ha c2, hb, p2, hk, last_int 44 (by decide), c3⟩
    · rcases slice_cases json valStart i with ⟨v, hv⟩ | hv
      rotate_left
      · run_go [pcBodyP, Src.pCore.body3, hc, h0, h1, h2, h4, h5, h6, SimX, l58, h3, PcP.leaf, hv, run_key _ hk]
      cases core with
      | none =>
        run_go [pcBodyP, Src.pCore.body3, hc, h0, h1, h2, h4, h5, h6, SimX, l58, h3, PcP.leaf, hv, PcP.child, NHeap.new,
          label_key _ _ _ _ _ _ _ _ _ _ h3, Option.map_none, run_key _ hk]
      | some a =>
        have ha := hcore a rfl
        obtain ⟨r, hr⟩ := node_at ha
        obtain ⟨n1, n2⟩ := add_new (x := ⟨key, v, some a, []⟩) hr
        cases idxs with
        | nil =>
          rw [Seq.inc_empty hx] at e4
          run_go [pcBodyP, Src.pCore.body3, hc, h0, h1, h2, h4, h5, h6, SimX, l58, h3, e4, PcP.leaf, hv, PcP.child, NHeap.new,
            label_key _ _ _ _ _ _ _ _ _ _ h3, Option.map_some, node_ok n1, n2, run_key _ hk]
        | cons n idxs =>
          obtain ⟨qx', p1, p2⟩ := Seq.inc_holds hx
          rw [p1] at e4
          run_go [pcBodyP, Src.pCore.body3, hc, h0, h1, h2, h4, h5, h6, SimX, l58, h3, e4, PcP.leaf, hv, PcP.child, NHeap.new,
            label_key _ _ _ _ _ _ _ _ _ _ h3, Option.map_some, node_ok n1, n2, run_key _ hk]
          obtain ⟨c1, c2, c3⟩ := child_ok (l := key) (v := v) hClosed ha hm
          exact ⟨⟨qb, qx', qk, .int 44⟩, rfl, c1, fun x hx => by cases hx; exact Nat.lt_trans ha c2, hb, p2, hk, last_int 44 (by decide), c3⟩

/-- The variables before the loops. -/
abbrev pEnv0 (json : Bytes) (h : NHeap) (core : Nat) (start : Int) (tb : List Bool) (q : PcX) : Env :=
  [(go% isJSONChar, .bools tb), (go% chars, .bytes [34, 44, 58, 91, 93, 123, 125]), (go% last, q.last),
    (go% valStart, .int 0), (go% key, q.key), (go% «end», .int 0), (go% start, .int start),
    (go% indexList.length, .int q.idxs.length), (go% indexList.index, .int q.idxs.index), (go% indexList.list, .ints q.idxs.list),
    (go% braceList.length, .int q.braces.length), (go% braceList.index, .int q.braces.index), (go% braceList.list, .ints q.braces.list),
    (go% inQuote, .bool false), (go% lenj, .int json.length), (0, .nil),
    (go% heap, .heap h), (go% json, .bytes json), (go% core, .ptr core)]

theorem pCore_for1 (h : NHeap) (core : Nat) (start : Int) (q : PcX) :
    exec (ctx fl fuel d) fuel Src.pCore.for1 ⟨(), pEnv0 json h core start (List.replicate 256 false) q⟩ =
    .norm ⟨(), pEnv0 json h core start (tbl true true) q⟩ := by
  run_go [Src.pCore.for1]
  refine (range_tbl ?_ [34, 44, 58, 91, 93, 123, 125] _ _ rfl List.length_replicate).trans ?_
  · intro tb c h
    run_go [Src.pCore.body1, put_nat tb c.toNat true (by rw [h]; exact c.toNat_lt)]
  · rw [tbl_seven]

theorem pCore_for2 (hf : json.length < fuel) (h : NHeap) (core : Nat) (q : PcX) :
    exec (ctx fl fuel (d + 1)) fuel Src.pCore.for2 ⟨(), pEnv0 json h core 0 (tbl true true) q⟩ =
    match skipSpaces json 0 with
    | some j => .norm ⟨(), pEnv0 json h core j (tbl true true) q⟩
    | none => .panic := by
  run_go [Src.pCore.for2]
  refine loop_skip (json := json) (fun j => ⟨(), pEnv0 json h core j (tbl true true) q⟩) ?_ ?_ ?_ fuel 0 (by omega)
  · intro i
    cases h : json[i]? <;> run_go [h]
  · intro i hi
    have h : ¬ ((json.length : Int) - 1 < i) := by omega
    run_go [Src.pCore.body2, h]
    rfl
  · intro i; run_go []

theorem pCore_for3 (hf : json.length < fuel) (h : NHeap) (core start : Nat) (hh : Closed h) (hc : core < h.length) (q : PcX)
    (hb : q.braces.Holds []) (hx : q.idxs.Holds [0]) (hk : q.key = .nil) (hl : q.last = .byte 0) :
    match forUp json.length (pcBodyP json) start ⟨h, some core, [], [0], false, start, 0, [], 0, 0⟩ with
    | .done s => ∃ q', exec (ctx fl fuel (d + 1)) fuel Src.pCore.for3 ⟨(), pEnv0 json h core start (tbl true true) q⟩ = .norm ⟨(), pEnv json s q'⟩ ∧
        PcOk h.length s q'
    | .ret _ => exec (ctx fl fuel (d + 1)) fuel Src.pCore.for3 ⟨(), pEnv0 json h core start (tbl true true) q⟩ = .panic := by
  have H := loop_forUpX (W := Unit) (c := fun s => (eval (ctx fl fuel (d + 1)) s.env (.bin .lt (.var (go% i)) (.var (go% lenj)))).bind Val.bool?)
    (post := fun s => exec (ctx fl fuel (d + 1)) fuel (.assign (go% i) (.bin .add (.var (go% i)) (.lit (.int 1)))) s)
    (body := fun s => exec (ctx fl fuel (d + 1)) fuel Src.pCore.body3 s) (hi := json.length) (b := pcBodyP json)
    (fun i s q => ⟨(), (go% i, .int i) :: (0, .nil) :: pEnv json s q⟩) (fun _ => .panic) (fun _ => PcOk h.length)
    (fun i s q => by run_go []) (fun i s q => by run_go []; rfl) (fun _ => rfl)
    (fun i s q hi hP => pCore_body3 hf hi s q hP) fuel start ⟨h, some core, [], [0], false, start, 0, [], 0, 0⟩ q
    ⟨hh, fun c e => by cases e; exact hc, hb, hx, .inr ⟨hk, rfl⟩, by rw [hl]; exact last_byte 0, Nat.le_refl _⟩ (by omega)
  cases e : forUp json.length (pcBodyP json) start ⟨h, some core, [], [0], false, start, 0, [], 0, 0⟩ with
  | done s =>
    rw [e] at H
    obtain ⟨j, q', H, hP⟩ := H
    refine ⟨q', ?_, hP⟩
    run_go [Src.pCore.for3]
    exact (congrArg Res.leave H).trans rfl
  | ret x =>
    rw [e] at H
    run_go [Src.pCore.for3]
    exact (congrArg Res.leave H).trans rfl

/-- `pCore`: the memory afterwards, or a panic. -/
theorem run_pCore (hf : json.length < fuel) (sp : Bool) (h : NHeap) (core : Nat) (hh : Closed h) (hc : core < h.length) :
    (jin fl).fn fuel (d + 2) (go% pCore) sp [.heap h, .bytes json, .ptr core] =
      (match pCoreP json core h with | some h' => .ok [.heap h', .nil] | none => .panic) ∧
    ∀ h', pCoreP json core h = some h' → Closed h' ∧ h.length ≤ h'.length := by
  rw [fn_run (g := Src.pCore) rfl]
  by_cases h1 : json.length < 2
  · refine ⟨?_, ?_⟩
    · run_go [Func.run, Src.pCore, bindParams, lt_two, h1, decide_true, pCoreP]
    · intro h' e
      rw [pCoreP, if_pos h1] at e
      cases e
      exact ⟨hh, Nat.le_refl _⟩
  have e1 : (jin fl).fn fuel (d + 1) (go% makeSeq) false [.int 4] = _ := run_makeSeq fl fuel d false 4
  obtain ⟨qx, p1, p2⟩ := Seq.push_holds (makeSeq_holds 4) 0
  have e2 := run_push fl fuel d false (makeSeq 4) 0
  rw [p1] at e2
  have e3 := pCore_for1 (fl := fl) (fuel := fuel) (d := d + 1) (json := json) h core 0 ⟨makeSeq 4, qx, .nil, .byte 0⟩
  have e4 := pCore_for2 (fl := fl) (d := d) hf h core ⟨makeSeq 4, qx, .nil, .byte 0⟩
  have e5 := fun start => pCore_for3 (fl := fl) (d := d) hf h core start hh hc ⟨makeSeq 4, qx, .nil, .byte 0⟩ (makeSeq_holds 4) p2 rfl rfl

  cases h2 : skipSpaces json 0 with
  | none =>
    rw [h2] at e4
    refine ⟨?_, ?_⟩
    · run_go [Func.run, Src.pCore, bindParams, lt_two, h1, decide_false, pCoreP, h2, e1, e2, e3, e4]
    · intro h' e
      rw [pCoreP, if_neg h1, h2] at e
      cases e
  | some start =>
    rw [h2] at e4
    have e5 := e5 start
    cases h3 : forUp json.length (pcBodyP json) start ⟨h, some core, [], [0], false, start, 0, [], 0, 0⟩ with
    | ret x =>
      rw [h3] at e5
      refine ⟨?_, ?_⟩
      · run_go [Func.run, Src.pCore, bindParams, lt_two, h1, decide_false, pCoreP, h2, h3, e1, e2, e3, e4, e5]
      · intro h' e
        rw [pCoreP, if_neg h1, h2] at e
        simp only [h3] at e
        cases e
    | done s =>
      rw [h3] at e5
      obtain ⟨q', e5, hP⟩ := e5
      refine ⟨?_, ?_⟩
      · run_go [Func.run, Src.pCore, bindParams, lt_two, h1, decide_false, pCoreP, h2, h3, e1, e2, e3, e4, e5]
      · intro h' e
        rw [pCoreP, if_neg h1, h2] at e
        simp only [h3, Option.some.injEq] at e
        subst e
        exact ⟨hP.closed, hP.grows⟩

end

end Jin.Go
