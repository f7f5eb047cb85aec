import Verif.Proof.ParserMemWorld
import Verif.Props.ParserPtr
/-!
# Props.ParserMem — the bytes that a parser and its caller share (C112, C113)
-/

namespace Jin
variable {grow : Nat → Nat}

/-! ### C112: programs that leave shared bytes alone -/

/-- Every step of a program has slices that exist then, and writes only to arrays that no parser uses then. -/
def WorldM.fine (grow : Nat → Nat) (w : WorldM) : List MemCall → Prop
  | [] => True
  | c :: cs => c.ok w ∧ (w.step grow c).1.fine grow cs

/-- The calls on parsers, with the bytes that the slices have when the call is made. -/
def WorldM.seen (grow : Nat → Nat) (w : WorldM) : List MemCall → List PtrCall
  | [] => []
  | c :: cs => (c.see w).toList ++ (w.step grow c).1.seen grow cs

/-- The answers of the calls on parsers, with the bytes that the slices have when they are given, up to a panic. -/
def WorldM.run (grow : Nat → Nat) (w : WorldM) : List MemCall → List PAns
  | [] => []
  | c :: cs =>
    let r := w.step grow c
    match c.see w with
    | none => r.1.run grow cs
    | some _ => r.2.see r.1.mem.bytes :: if (r.2.see r.1.mem.bytes).isPanic then [] else r.1.run grow cs

def WorldM.after (grow : Nat → Nat) (w : WorldM) : List MemCall → WorldM
  | [] => w
  | c :: cs => (w.step grow c).1.after grow cs

def WorldM.start : WorldM := ⟨⟨[], []⟩, []⟩

instance (a : Nat) (s : BSlice) : Decidable (s.inArray a) := by unfold BSlice.inArray; infer_instance

/-- Whether a label has bytes of array `a`. -/
def Label.inArray (a : Nat) : Label → Bool
  | .part s => decide (s.inArray a)
  | .str _ => false

theorem uses_iff (w : WorldM) (a : Nat) :
    w.uses a ↔ (∃ p ∈ w.parsers, p.json.inArray a) ∨ ∃ r ∈ w.mem.nodes, r.value.inArray a ∨ r.label.inArray a = true := by
  unfold WorldM.uses
  have : ∀ l : Label, (∃ s, l = .part s ∧ s.inArray a) ↔ l.inArray a = true := by
    intro l
    cases l with
    | str _ => exact ⟨fun ⟨_, h, _⟩ => (by cases h), fun h => by cases h⟩
    | part s =>
      show _ ↔ decide (s.inArray a) = true
      rw [decide_eq_true_iff]
      exact ⟨fun ⟨_, h, e⟩ => (by cases h; exact e), fun h => ⟨s, rfl, h⟩⟩
  simp only [this]

instance (w : WorldM) (a : Nat) : Decidable (w.uses a) := decidable_of_iff _ (uses_iff w a).symm

instance (b : BHeap) (s : BSlice) : Decidable (s.ok b) := by unfold BSlice.ok; infer_instance

instance (w : WorldM) (c : MemCall) : Decidable (c.ok w) := by
  cases c <;> unfold MemCall.ok <;> infer_instance

instance fineDec (grow : Nat → Nat) : ∀ (calls : List MemCall) (w : WorldM), Decidable (w.fine grow calls)
  | [], _ => isTrue trivial
  | c :: cs, w => @instDecidableAnd _ _ _ (fineDec grow cs (w.step grow c).1)

theorem start_ok : WorldM.start.ok := ⟨(fun r hr => by cases hr), (fun p hp => by cases hp)⟩

theorem memRun_rel : ∀ (calls : List MemCall) (w : WorldM), w.ok → w.fine grow calls → w.run grow calls = w.see.run (w.seen grow calls)
  | [], _, _, _ => rfl
  | c :: cs, w, hw, hf => by
    obtain ⟨h1, -, h3⟩ := step_rel (grow := grow) hw c hf.1
    have ih := memRun_rel cs _ h1 hf.2
    rw [WorldM.run, WorldM.seen]
    cases hc : c.see w with
    | none =>
      rw [hc] at h3
      simp only [Option.toList_none, List.nil_append] at h3 ⊢
      rw [ih, h3]
    | some pc =>
      rw [hc] at h3
      simp only [Option.toList_some, List.singleton_append] at h3 ⊢
      rw [WorldP.run, h3]
      simp only [ih]

/-- **C112** A program that makes byte slices, gives them to `Parse` and to the methods of parsers, keeps what it gets
back, and writes to slices of its own, gets at each call the bytes and the error that parsers give that are values with
bytes of their own, as long as it writes to no array that a parser uses.  That is so although nodes keep slices of the
text and of the values given, labels are windows on the text, and the results are slices of the same arrays. -/
theorem C112_sessions (grow : Nat → Nat) (calls : List MemCall) (hf : WorldM.start.fine grow calls) :
    WorldM.start.run grow calls = valRun [] (WorldM.start.seen grow calls) := by
  rw [memRun_rel calls _ start_ok hf]
  exact C96_sessions _

/-- **C112** No method of a parser writes to an array that there is: whatever slice the program holds, given to a call
or got from one, keeps its bytes through any later calls on any parsers. -/
theorem C112_untouched (grow : Nat → Nat) : ∀ (calls : List MemCall) (w : WorldM), w.ok → w.fine grow calls →
    (∀ c ∈ calls, c.isWrite = false) → ∃ new, (w.after grow calls).mem.bytes = w.mem.bytes ++ new
  | [], _, _, _, _ => ⟨[], by rw [WorldM.after, List.append_nil]⟩
  | c :: cs, w, hw, hf, hc => by
    obtain ⟨h1, h2, -⟩ := step_rel (grow := grow) hw c hf.1
    obtain ⟨n1, e1⟩ := h2 (hc c (by simp))
    obtain ⟨n2, e2⟩ := C112_untouched grow cs _ h1 hf.2 fun d hd => hc d (by simp [hd])
    exact ⟨n1 ++ n2, by rw [WorldM.after, e2, e1, List.append_assoc]⟩

/-- In terms of a slice. -/
theorem C112_kept (grow : Nat → Nat) (calls : List MemCall) (w : WorldM) (hw : w.ok) (hf : w.fine grow calls)
    (hc : ∀ c ∈ calls, c.isWrite = false) (s : BSlice) (hs : s.ok w.mem.bytes) :
    (w.after grow calls).mem.bytes.read s = w.mem.bytes.read s := by
  obtain ⟨new, e⟩ := C112_untouched grow calls w hw hf hc
  rw [e, read_append hs]

/-- After a fine program all slices of parsers and nodes lie in their arrays. -/
theorem after_ok : ∀ (calls : List MemCall) (w : WorldM), w.ok → w.fine grow calls → (w.after grow calls).ok
  | [], _, hw, _ => hw
  | c :: cs, w, hw, hf => after_ok cs _ (step_rel hw c hf.1).1 hf.2

/-! ### C113: what a parser shares -/

/-- A node whose label and value are parts of `json`, or nothing, or a label of its own. -/
def NodeM.inside (json : BSlice) (r : NodeM) : Prop :=
  (r.value = .nil ∨ Window json r.value) ∧ ∀ s, r.label = .part s → s = .nil ∨ Window json s

/-- A property of nodes that nodes with parts of `json` have, and that a part of `json` as value and other links keep. -/
structure KeepsParts (json : BSlice) (Q : NodeM → Prop) : Prop where
  new : ∀ {r : NodeM}, r.inside json → Q r
  down : ∀ {r : NodeM} {d : List Nat}, Q r → Q { r with down := d }
  value : ∀ {r : NodeM} {v : BSlice}, Q r → Window json v → Q { r with value := v }

/-- The nodes from number `n` on. -/
def MHeap.From (Q : NodeM → Prop) (n : Nat) (h : MHeap) : Prop := ∀ i r, n ≤ i → h[i]? = some r → Q r

theorem keeps_inside (json : BSlice) : KeepsParts json (NodeM.inside json) := ⟨id, fun h => h, fun h hv => ⟨.inr hv, h.2⟩⟩

variable {b : BHeap} {json : BSlice} {n : Nat} {h : MHeap} {Q : NodeM → Prop}

theorem from_modify {f : NodeM → NodeM} (hh : h.From Q n) (hf : ∀ r, Q r → Q (f r)) (p : Nat) :
    MHeap.From Q n (h.modify p f) := by
  intro i r hi hr
  rw [List.getElem?_modify] at hr
  cases ho : h[i]? with
  | none => rw [ho] at hr; cases hr
  | some x =>
    rw [ho] at hr
    have hx := hh i x hi ho
    split at hr
    · cases hr; exact hf _ hx
    · cases hr; exact hx

theorem from_append (hh : h.From Q n) {r : NodeM} (hr : Q r) : MHeap.From Q n (h ++ [r]) := by
  intro i x hi hx
  rcases Nat.lt_trichotomy i h.length with hl | hl | hl
  · rw [List.getElem?_append_left hl] at hx; exact hh i x hi hx
  · subst hl; rw [List.getElem?_concat_length] at hx; cases hx; exact hr
  · rw [List.getElem?_eq_none (by simp; omega)] at hx; cases hx

theorem sub_win {lo hi : Int} {s : BSlice} (hj : json.ok b) (h2 : hi ≤ json.len) (hs : json.sub lo hi = some s) : Window json s := by
  have := sub_rel (h := b) (lo := lo) hj h2
  rw [hs] at this
  cases hv : slice (b.read json) lo hi <;> rw [hv] at this <;> first | exact this.1 | exact this.elim

theorem child_inside (hQ : KeepsParts json Q) {s : PcM} {l : Label} {v : BSlice} {x : MHeap × Nat} (hs : s.heap.From Q n) (hl : ∀ t, l = .part t → t = .nil ∨ Window json t)
    (hv : v = .nil ∨ Window json v) (hx : s.child l v = some x) : x.1.From Q n := by
  unfold PcM.child at hx
  cases hc : s.core with
  | none => rw [hc] at hx; cases hx
  | some c =>
    rw [hc] at hx
    cases hx
    exact from_modify (f := fun r => { r with down := r.down ++ [s.heap.length] }) (from_append hs (hQ.new ⟨hv, hl⟩)) (fun _ hr => hQ.down hr) c

structure PcM.From (json : BSlice) (Q : NodeM → Prop) (n : Nat) (s : PcM) : Prop where
  heap : s.heap.From Q n
  key : s.key = .nil ∨ Window json s.key
  stop : s.stop ≤ json.len

theorem label_inside {s : PcM} {l : Label} (hs : s.From json Q n) (hl : s.label = some l) : ∀ t, l = .part t → t = .nil ∨ Window json t := by
  unfold PcM.label at hl
  split at hl
  · cases hl; intro t ht; cases ht; exact hs.key
  · intro t ht
    subst ht
    cases hi : s.idxs.head? with
    | none => rw [hi] at hl; cases hl
    | some k => rw [hi] at hl; cases hl

theorem leaf_inside (hQ : KeepsParts json Q) {s : PcM} {i : Nat} {x : MHeap} (hj : json.ok b) (hs : s.From json Q n) (hi : i ≤ json.len) (hx : s.leaf json i = some x) :
    x.From Q n := by
  unfold PcM.leaf at hx
  cases h1 : json.sub s.valStart i with
  | none => rw [h1] at hx; cases hx
  | some v =>
    cases h2 : s.label with
    | none => rw [h1, h2] at hx; cases hx
    | some l =>
      rw [h1, h2] at hx
      simp only at hx
      cases h3 : s.child l v with
      | none => rw [h3] at hx; cases hx
      | some y =>
        rw [h3] at hx
        cases hx
        exact child_inside hQ hs.heap (label_inside hs h2) (.inr (sub_win hj (by omega) h1)) h3

/-- Of the loop of `pCore`: every node it makes has parts of the text. -/
theorem pcBody_inside (hQ : KeepsParts json Q) (hj : json.ok b) (i : Nat) (s : PcM) (hs : s.From json Q n) :
    CtlRel (fun a _ => PcM.From json Q n a) (fun _ _ => True) (pcBodyM b json i s) (pcBodyM b json i s) := by
  have hlen := bread_length hj
  unfold pcBodyM
  cases hc : (b.read json)[i]? with
  | none => trivial
  | some curr =>
    have hi : i < json.len := by rw [← hlen]; exact (List.getElem?_eq_some_iff.1 hc).1
    have hl : ∀ x, s.leaf json i = some x → x.From Q n := fun x hx => leaf_inside hQ hj hs (by omega) hx
    simp only
    split
    · exact hs
    split
    · split
      · cases quoteScan (b.read json) i i
        · exact ⟨hs.heap, hs.key, by show i ≤ json.len; omega⟩
        · exact hs
        · exact ⟨hs.heap, hs.key, hs.stop⟩
      · exact ⟨hs.heap, hs.key, hs.stop⟩
    split
    · exact hs
    split
    · cases h1 : s.label with
      | none => trivial
      | some l =>
        simp only
        cases h3 : s.child l .nil with
        | none => trivial
        | some x => exact ⟨child_inside hQ hs.heap (label_inside hs h1) (.inl rfl) h3, hs.key, hs.stop⟩
    split
    · have hch : ∀ x, (if (s.last == 58) = true then (s.leaf json i).map fun h => (h, s.valStart)
            else if (s.last == 44) = true then (s.leaf json i).map fun h => (h, i + 1)
            else some (s.heap, s.valStart)) = some x → x.1.From Q n := by
        intro x hx
        cases h1 : s.leaf json i with
        | none =>
          rw [h1] at hx
          split at hx
          · cases hx
          split at hx
          · cases hx
          · cases hx; exact hs.heap
        | some y =>
          rw [h1] at hx
          split at hx
          · cases hx; exact hl y h1
          split at hx
          · cases hx; exact hl y h1
          · cases hx; exact hs.heap
      revert hch
      generalize (if (s.last == 58) = true then (s.leaf json i).map fun h => (h, s.valStart)
            else if (s.last == 44) = true then (s.leaf json i).map fun h => (h, i + 1)
            else some (s.heap, s.valStart)) = X
      intro hch
      cases X with
      | none => trivial
      | some x =>
        have hx := hch x rfl
        obtain ⟨h', vs⟩ := x
        simp only
        cases s.core with
        | none => trivial
        | some c =>
          cases s.braces with
          | nil => trivial
          | cons bb braces =>
            simp only
            cases h7 : json.sub bb ((i : Int) + 1) with
            | none => trivial
            | some v =>
              cases s.idxs with
              | nil => trivial
              | cons _ idxs =>
                exact ⟨from_modify (f := fun r => { r with value := v }) hx (fun _ hr => hQ.value hr (sub_win hj (by omega) h7)) c, hs.key, hs.stop⟩
    split
    · cases h7 : json.sub s.start s.stop with
      | none => trivial
      | some v => exact ⟨hs.heap, .inr (sub_win hj (by have := hs.stop; omega) h7), hs.stop⟩
    split
    · have hch : ∀ x, (if (s.last == 58) = true then s.leaf json i
            else if (s.last == 44 || s.last == 91) = true then s.leaf json i
            else some s.heap) = some x → x.From Q n := by
        intro x hx
        split at hx
        · exact hl x hx
        split at hx
        · exact hl x hx
        · cases hx; exact hs.heap
      revert hch
      generalize (if (s.last == 58) = true then s.leaf json i
            else if (s.last == 44 || s.last == 91) = true then s.leaf json i
            else some s.heap) = X
      intro hch
      cases X with
      | none => trivial
      | some x =>
        cases s.idxs with
        | nil => trivial
        | cons k idxs => exact ⟨hch x rfl, hs.key, hs.stop⟩
    · exact hs

theorem pCore_inside (hQ : KeepsParts json Q) {core : Nat} {x : MHeap} (hj : json.ok b) (hh : h.From Q n) (hx : pCoreM b json core h = some x) : x.From Q n := by
  unfold pCoreM at hx
  split at hx
  · cases hx; exact hh
  · cases hk : skipSpaces (b.read json) 0 with
    | none => rw [hk] at hx; cases hx
    | some start =>
      rw [hk] at hx
      have := forUp_sim (hi := json.len) (b1 := pcBodyM b json) (b2 := pcBodyM b json) (S := fun a c => PcM.From json Q n a ∧ a = c) (R := fun _ _ => True)
        (fun i s t hst => by
          obtain ⟨h1, rfl⟩ := hst
          have := pcBody_inside hQ hj i s h1
          revert this
          cases pcBodyM b json i s <;> intro this
          · exact ⟨this, rfl⟩
          · exact ⟨rfl, this.2, rfl⟩
          · exact ⟨this, rfl⟩
          · trivial) (i := start)
        (s := ⟨h, some core, [], [0], false, start, 0, .nil, 0, 0⟩) (t := ⟨h, some core, [], [0], false, start, 0, .nil, 0, 0⟩)
        ⟨⟨hh, .inl rfl, Nat.zero_le _⟩, rfl⟩
      simp only at hx
      revert hx this
      cases forUp json.len (pcBodyM b json) start ⟨h, some core, [], [0], false, start, 0, .nil, 0, 0⟩ with
      | ret _ => intro hx; cases hx
      | done s => intro hx this; cases hx; exact this.1.heap

/-- **C113** What `Parse` keeps: no byte is copied.  The parser's text is the slice it was given, and the label and the
value of every node it makes are windows on that slice, or decimal numbers, or nothing. -/
theorem C113_parse {m m' : Mem} {p : ParserM} (hj : json.ok m.bytes) (hp : ParseM json m = .ok (p, m')) :
    p.json = json ∧ m'.bytes = m.bytes ∧ m'.nodes.From (NodeM.inside json) m.nodes.length := by
  unfold ParseM at hp
  simp only at hp
  cases hc : pCoreM m.bytes json (createNodeM m.nodes none).2 (createNodeM m.nodes none).1 with
  | none => rw [hc] at hp; cases hp
  | some h =>
    rw [hc] at hp
    simp only at hp
    have h0 : MHeap.From (NodeM.inside json) m.nodes.length (createNodeM m.nodes none).1 := by
      refine from_append (fun i r hi hr => ?_) ⟨.inl rfl, fun s hs => by cases hs⟩
      rw [List.getElem?_eq_none (by omega)] at hr
      cases hr
    have := pCore_inside (keeps_inside json) hj h0 hc
    cases hr : h[(createNodeM m.nodes none).2]? with
    | none => rw [hr] at hp; cases hp
    | some r =>
      rw [hr] at hp
      simp only at hp
      cases hd : r.down with
      | nil => rw [hd] at hp; cases hp
      | cons c _ => rw [hd] at hp; cases hp; exact ⟨rfl, rfl, this⟩

theorem child_value (h : NHeap) (p : Bytes) (u : Nat) (v : Bytes) (down : List Nat) : (h.setValue u v).child? p down = h.child? p down := by
  unfold NHeap.child? NHeap.setValue
  congr 1
  funext d
  rw [List.getElem?_modify]
  cases h[d]? with
  | none => rfl
  | some r => by_cases hu : u = d <;> simp [hu]

/-- Values play no part in finding a node. -/
theorem walk_value (h : NHeap) (u : Nat) (v : Bytes) : ∀ (path : List Bytes) (n : Nat), (h.setValue u v).walk n path = h.walk n path
  | [], _ => rfl
  | p :: ps, n => by
    rw [NHeap.walk, NHeap.walk]
    have hn : (h.setValue u v)[n]? = h[n]?.map fun r => if u = n then { r with value := v } else r := by
      unfold NHeap.setValue
      rw [List.getElem?_modify]
      cases h[n]? with
      | none => rfl
      | some r => by_cases hu : u = n <;> simp [hu]
    rw [hn]
    cases h[n]? with
    | none => rfl
    | some r =>
      have hd : (if u = n then { r with value := v } else r).down = r.down := by split <;> rfl
      simp only [Option.map_some, hd, child_value]
      cases h.child? p r.down with
      | none => rfl
      | some d => exact walk_value h u v ps d

/-- **C113** What `Set` keeps: the node has the slice that was given.  A program that sets the value of a member of the
top object or array to a scalar, and then reuses that slice for other bytes, changes what `Get` gives at that path, while
`JSON()` stays: the tree and the text of the parser disagree. -/
theorem C113_set {w : WorldM} {p p' : ParserM} {m' : Mem} {v : BSlice} {key x : Bytes} (hw : w.ok) (hpw : p ∈ w.parsers) (hv : v.ok w.mem.bytes)
    (hs : opensContainer (w.mem.bytes.read v) = false) (hu : ¬ w.uses v.blk) (hb : v.blk < w.mem.bytes.length)
    (hset : p.Set grow w.mem v [key] = .done p' m' none) (hx : x.length = v.len) :
    (⟨m'.bytes.write v.blk v.off x, m'.nodes⟩ : Mem).bytes.read p'.json = m'.bytes.read p'.json ∧
    ReadRel (m'.bytes.write v.blk v.off x) (p'.Get ⟨m'.bytes.write v.blk v.off x, m'.nodes⟩ [key]) (cleanValue x) := by
  have hp := hw.parsers p hpw
  have ha := C93_set grow v [key] hp hv
  unfold ParserM.Set at hset
  rw [if_neg (by simp)] at hset
  cases hwk : w.mem.see.walk p.core [key] with
  | panic => rw [hwk] at hset; cases hset
  | err e => rw [hwk] at hset; cases hset
  | ok curr =>
    rw [hwk] at hset
    simp only [hs, Bool.false_eq_true, if_false] at hset
    obtain ⟨⟨new, e1⟩, hm⟩ := ha
    cases hS : SetMem grow w.mem.bytes p.json v [key] with
    | mk r b' =>
      rw [hS] at hset e1 hm
      cases r with
      | panic => cases hset
      | done s er =>
        simp only at hset e1
        have hq : prefixes [key] 1 ([key].length - 1) = [] := rfl
        rw [hq] at hset
        simp only [finishM, climbM] at hset
        cases hset
        simp only at *
        have hjb : ¬ s.inArray v.blk := by
          cases er with
          | none => exact fun e => by have := hm.1; have := e.1; omega
          | some er => have := hm.1; rw [this]; exact fun e => hu (.inl ⟨p, hpw, e⟩)
        have hold : ∀ t : BSlice, t.ok w.mem.bytes → ¬ t.inArray v.blk → (b'.write v.blk v.off x).read t = w.mem.bytes.read t := by
          intro t ht hne
          rw [write_apart hne, e1, read_append ht]
        have hnew : (b'.write v.blk v.off x).read v = x := by
          unfold BHeap.read
          rw [e1]
          have hb' : v.blk < (w.mem.bytes ++ new).length := by simp; omega
          have hblk : BHeap.block ((w.mem.bytes ++ new).write v.blk v.off x) v.blk =
              (BHeap.block (w.mem.bytes ++ new) v.blk).take v.off ++ x ++ (BHeap.block (w.mem.bytes ++ new) v.blk).drop (v.off + x.length) := by
            unfold BHeap.write BHeap.block
            rw [List.getElem?_modify_eq, List.getElem?_eq_getElem hb']
            rfl
          rw [hblk]
          have hk := (ok_append (k := new) hv).2
          rw [List.append_assoc, List.drop_append_of_le_length (by simp; have := hv.1; omega), List.drop_take, Nat.sub_self, List.take_zero, List.nil_append,
            ← hx, List.take_left]
        have hvok : v.ok (b'.write v.blk v.off x) := by
          refine ⟨hv.1, ?_⟩
          have hb' : v.blk < (w.mem.bytes ++ new).length := by simp; omega
          have hk := (ok_append (k := new) hv).2
          rw [e1]
          unfold BHeap.write BHeap.block
          unfold BHeap.block at hk
          rw [List.getElem?_modify_eq]
          rw [List.getElem?_eq_getElem hb'] at hk ⊢
          simp only [Option.getD_some, Option.map_some, List.length_append, List.length_take, List.length_drop] at hk ⊢
          show _ ≤ (List.take v.off _ ++ x ++ List.drop (v.off + x.length) _).length
          simp only [List.length_append, List.length_take, List.length_drop]
          omega
        have hsee : MHeap.see (b'.write v.blk v.off x) (w.mem.nodes.setValue curr v) = w.mem.see.setValue curr x := by
          rw [see_setValue, hnew]
          congr 1
          refine List.map_congr_left fun r hr => ?_
          have hrk := hw.mem r hr
          have hrv : ¬ r.value.inArray v.blk := fun e => hu (.inr ⟨r, hr, .inl e⟩)
          unfold NodeM.see
          rw [hold _ hrk.2 hrv]
          have hrl := hrk.1
          cases hl : r.label with
          | str _ => rfl
          | part t =>
            have htb : ¬ t.inArray v.blk := fun e => hu (.inr ⟨r, hr, .inr ⟨t, hl, e⟩⟩)
            rw [hl] at hrl
            show NodeRec.mk ((b'.write v.blk v.off x).read t) _ _ _ = NodeRec.mk (w.mem.bytes.read t) _ _ _
            rw [hold t hrl htb]
        refine ⟨write_apart hjb, ?_⟩
        unfold ParserM.Get
        rw [if_neg (by simp)]
        simp only
        rw [Mem.see]
        simp only
        rw [hsee, walk_value, hwk]
        simp only
        have hcur : ∃ r, w.mem.nodes[curr]? = some r := by
          cases hr : w.mem.nodes[curr]? with
          | some r => exact ⟨r, rfl⟩
          | none =>
            exfalso
            rw [NHeap.walk] at hwk
            cases hc : w.mem.see[p.core]? with
            | none => rw [hc] at hwk; cases hwk
            | some r =>
              rw [hc] at hwk
              simp only at hwk
              cases hd : w.mem.see.child? key r.down with
              | none => rw [hd] at hwk; cases hwk
              | some d =>
                rw [hd] at hwk
                simp only [NHeap.walk] at hwk
                cases hwk
                have := List.find?_some hd
                rw [show w.mem.see[curr]? = w.mem.nodes[curr]?.map (NodeM.see w.mem.bytes) from see_get _, hr] at this
                cases this
        obtain ⟨r, hr⟩ := hcur
        have hcell : (w.mem.nodes.setValue curr v)[curr]? = some { r with value := v } := by
          unfold MHeap.setValue
          rw [List.getElem?_modify_eq, hr]
          rfl
        rw [hcell]
        simp only
        have := clean_read hvok
        rw [hnew] at this
        exact this

/-! The text of a parser after an edit. -/

/-- Of the text of a parser after a method. -/
def PResM.text (P : BSlice → Prop) : PResM → Prop
  | .panic => True
  | .done p _ _ => P p.json

theorem finish_text {P : BSlice → Prop} {p : ParserM} {bytes : BHeap} {json : BSlice} (hP : P json) (qs : List (List Bytes)) (curr : Nat) (h : MHeap) :
    (finishM p bytes json qs curr h).text P := by
  unfold finishM
  split
  · trivial
  · exact hP

/-- The text is as before, or in an array that there was not before. -/
def newText (m : Mem) (p : ParserM) (s : BSlice) : Prop := s = p.json ∨ m.bytes.length ≤ s.blk

theorem apart_text {m : Mem} {p : ParserM} {r : MutS × BHeap} {v : Mut} (ha : Apart m.bytes p.json r v) {s : BSlice} {e : Option Err} {b' : BHeap}
    (hr : r = (.done s e, b')) : newText m p s := by
  subst hr
  cases e with
  | none => exact .inr ha.2.1
  | some e => exact .inl ha.2.1

theorem beforeLast_text {m : Mem} {p : ParserM} {text : Bytes} {bare : Bool} {s : BSlice} {b' : BHeap}
    (hp : p.json.ok m.bytes) (h : beforeLastM grow m.bytes p.json text bare = some (s, b')) : newText m p s := by
  have := beforeLast_rel (grow := grow) hp text bare
  rw [h] at this
  revert this
  cases beforeLast (m.bytes.read p.json) (if bare then text else 44 :: text) <;> intro this
  · exact .inr this.2.2.1
  · exact this.elim
  · exact this.elim

theorem set_text {m : Mem} {p : ParserM} {v : BSlice} {path : List Bytes} (hp : p.json.ok m.bytes) (hv : v.ok m.bytes) :
    (p.Set grow m v path).text (newText m p) := by
  have ha := C93_set grow v path hp hv
  unfold ParserM.Set
  simp only
  repeat' (first | trivial | exact Or.inl rfl | exact finish_text (apart_text ha (by assumption)) _ _ _ | split)

theorem setKey_text {m : Mem} {p : ParserM} {key : Bytes} {path : List Bytes} (hp : p.json.ok m.bytes) :
    (p.SetKey grow m key path).text (newText m p) := by
  have ha := C93_setKey grow key path hp
  unfold ParserM.SetKey
  simp only
  repeat' (first | trivial | exact Or.inl rfl | exact apart_text ha (by assumption) | split)

theorem delete_text {m : Mem} {p : ParserM} {path : List Bytes} (hp : p.json.ok m.bytes) :
    (p.Delete grow m path).text (newText m p) := by
  have ha := C93_delete grow path hp
  unfold ParserM.Delete
  repeat' (first | trivial | exact Or.inl rfl | exact apart_text ha (by assumption) | exact finish_text (apart_text ha (by assumption)) _ _ _ | split)

theorem addKeyValue_text {m : Mem} {p : ParserM} {key : Bytes} {v : BSlice} {path : List Bytes} (hp : p.json.ok m.bytes) :
    (p.AddKeyValue grow m key v path).text (newText m p) := by
  have ha := C93_addKeyValue grow key (some v) path hp
  unfold ParserM.AddKeyValue
  simp only
  repeat' (first | trivial | exact Or.inl rfl | exact apart_text ha (by assumption) | exact finish_text (apart_text ha (by assumption)) _ _ _ | exact beforeLast_text hp (by assumption) | split)

theorem add_text {m : Mem} {p : ParserM} {v : BSlice} {path : List Bytes} (hp : p.json.ok m.bytes) (hv : v.ok m.bytes) :
    (p.Add grow m v path).text (newText m p) := by
  have ha := C93_add grow v path hp hv
  unfold ParserM.Add
  simp only
  repeat' (first | trivial | exact Or.inl rfl | exact apart_text ha (by assumption) | exact finish_text (apart_text ha (by assumption)) _ _ _ | exact beforeLast_text hp (by assumption) | split)

theorem insert_text {m : Mem} {p : ParserM} {index : Int} {v : BSlice} {path : List Bytes} (hp : p.json.ok m.bytes) (hv : v.ok m.bytes) :
    (p.Insert grow m index v path).text (newText m p) := by
  have ha := C93_insert grow index v path hp hv
  unfold ParserM.Insert
  simp only
  repeat' (first | trivial | exact Or.inl rfl | exact apart_text ha (by assumption) | exact finish_text (apart_text ha (by assumption)) _ _ _ | exact beforeLast_text hp (by assumption) | split)

theorem mut_text {w : WorldM} {f : Mem → ParserM → PResM} {j k : Nat} {p : ParserM} (hp : w.parsers[k]? = some p)
    (hf : (f w.mem p).text (newText w.mem p)) :
    ∃ p', (w.mut j f).1.parsers[k]? = some p' ∧ newText w.mem p p'.json := by
  unfold WorldM.mut
  cases hj : w.parsers[j]? with
  | none => exact ⟨p, hp, .inl rfl⟩
  | some q =>
    simp only
    by_cases hjk : j = k
    · subst hjk
      rw [hj] at hp
      cases hp
      cases hr : f w.mem p with
      | panic => exact ⟨p, hj, .inl rfl⟩
      | done p' m e =>
        rw [hr] at hf
        exact ⟨p', by simp [List.getElem?_set_self', hj], hf⟩
    · cases f w.mem q with
      | panic => exact ⟨p, hp, .inl rfl⟩
      | done p' m e => exact ⟨p, by simp [List.getElem?_set_ne hjk, hp], .inl rfl⟩

/-- One step, on whatever parser. -/
theorem step_text {w : WorldM} (hw : w.ok) (c : MemCall) (hc : c.ok w) {k : Nat} {p : ParserM} (hp : w.parsers[k]? = some p) :
    ∃ p', (w.step grow c).1.parsers[k]? = some p' ∧ newText w.mem p p'.json := by
  have hj := hw.parsers p (List.mem_of_getElem? hp)
  have hk : k < w.parsers.length := (List.getElem?_eq_some_iff.1 hp).1
  cases c with
  | bytes x n => exact ⟨p, hp, .inl rfl⟩
  | write s i x => exact ⟨p, hp, .inl rfl⟩
  | parse s =>
    unfold WorldM.step
    simp only
    split
    · exact ⟨p, hp, .inl rfl⟩
    · exact ⟨p, hp, .inl rfl⟩
    · exact ⟨p, by rw [List.getElem?_append_left hk]; exact hp, .inl rfl⟩
  | set j v path => exact mut_text hp (set_text hj hc)
  | setKey j key path => exact mut_text hp (setKey_text hj)
  | delete j path => exact mut_text hp (delete_text hj)
  | addKeyValue j key v path => exact mut_text hp (addKeyValue_text hj)
  | add j v path => exact mut_text hp (add_text hj hc)
  | insert j i v path => exact mut_text hp (insert_text hj hc)
  | get j path => unfold WorldM.step; simp only; split <;> exact ⟨p, hp, .inl rfl⟩
  | getNew j path => unfold WorldM.step; simp only; split <;> exact ⟨p, hp, .inl rfl⟩
  | tree j pad b => unfold WorldM.step; simp only; split <;> exact ⟨p, hp, .inl rfl⟩

theorem step_length {w : WorldM} (hw : w.ok) (c : MemCall) (hc : c.ok w) : w.mem.bytes.length ≤ (w.step grow c).1.mem.bytes.length := by
  cases hb : c.isWrite with
  | false =>
    obtain ⟨new, e⟩ := (step_rel (grow := grow) hw c hc).2.1 hb
    rw [e]
    simp
  | true =>
    cases c <;> first | cases hb | skip
    unfold WorldM.step BHeap.write
    simp

theorem after_text : ∀ (calls : List MemCall) (w : WorldM), w.ok → w.fine grow calls → ∀ (k : Nat) (p : ParserM), w.parsers[k]? = some p →
    ∃ p', (w.after grow calls).parsers[k]? = some p' ∧ newText w.mem p p'.json
  | [], _, _, _, _, p, hp => ⟨p, hp, .inl rfl⟩
  | c :: cs, w, hw, hf, k, p, hp => by
    obtain ⟨p1, h1, t1⟩ := step_text (grow := grow) hw c hf.1 hp
    obtain ⟨p2, h2, t2⟩ := after_text cs _ (step_rel hw c hf.1).1 hf.2 k p1 h1
    refine ⟨p2, h2, ?_⟩
    rcases t2 with e | h
    · rw [e]; exact t1
    · exact .inr (Nat.le_trans (step_length hw c hf.1) h)

/-- **C113** The text of a parser, as `JSON()` gives it, is never in an array that was given to an edit: through any
program it stays the slice it was, or becomes one of an array made later.  So a slice the program held before, not of the
array that the parser's text was in, can be written to without effect on `JSON()`. -/
theorem C113_text_partial (grow : Nat → Nat) (calls : List MemCall) (w : WorldM) (hw : w.ok) (hf : w.fine grow calls) (k : Nat) (p : ParserM)
    (hp : w.parsers[k]? = some p) :
    ∃ p', (w.after grow calls).parsers[k]? = some p' ∧ ∀ (s : BSlice) (i : Nat) (x : Bytes), s.blk < w.mem.bytes.length → s.blk ≠ p.json.blk →
      ((w.after grow calls).mem.bytes.write s.blk (s.off + i) x).read p'.json = (w.after grow calls).mem.bytes.read p'.json := by
  obtain ⟨p', h1, h2⟩ := after_text calls w hw hf k p hp
  refine ⟨p', h1, fun s i x hs hne => write_other ?_⟩
  rcases h2 with e | h
  · rw [e]; exact hne.symm
  · omega

/-! ### Where it fails -/

/-- Slices that Go can have, and writes that stay in them: what any program does. -/
def MemCall.legal (w : WorldM) : MemCall → Prop
  | .write s i x => s.ok w.mem.bytes ∧ i + x.length ≤ s.len
  | c => c.ok w

def WorldM.legal (grow : Nat → Nat) (w : WorldM) : List MemCall → Prop
  | [] => True
  | c :: cs => c.legal w ∧ (w.step grow c).1.legal grow cs

instance (w : WorldM) (c : MemCall) : Decidable (c.legal w) := by
  cases c <;> unfold MemCall.legal <;> infer_instance

instance legalDec (grow : Nat → Nat) : ∀ (calls : List MemCall) (w : WorldM), Decidable (w.legal grow calls)
  | [], _ => isTrue trivial
  | c :: cs, w => @instDecidableAnd _ _ _ (legalDec grow cs (w.step grow c).1)

theorem ok_legal {w : WorldM} {c : MemCall} (hc : c.ok w) : c.legal w := by
  cases c <;> first | exact hc | exact ⟨hc.1, hc.2.1⟩

/-- A write to an array that a parser uses is all that sets the two apart. -/
theorem fine_legal : ∀ (calls : List MemCall) (w : WorldM), w.fine grow calls → w.legal grow calls
  | [], _, _ => trivial
  | c :: cs, _, h => ⟨ok_legal h.1, fine_legal cs _ h.2⟩

deriving instance DecidableEq for PAns

/-- **C113 does not hold in full**: not every program gets the answers of parsers that own their bytes. -/
theorem C113_fails : ¬ ∀ (grow : Nat → Nat) (calls : List MemCall), WorldM.start.legal grow calls →
    WorldM.start.run grow calls = valRun [] (WorldM.start.seen grow calls) := by
  intro h
  exact absurd (h (fun n => n) [.bytes "{\"a\":1}".toUTF8.toList 0, .parse ⟨0, 0, 7, 7⟩, .write ⟨0, 0, 7, 7⟩ 2 [98], .get 0 [[97]]] (by decide +kernel)) (by decide +kernel)

section Examples

/-- `{"a":1,"b":[2,4]}` in array 0 with five spare bytes, `{"k":3}` in array 1, `9` in array 2. -/
def memStart : List MemCall :=
  [.bytes [123, 34, 97, 34, 58, 49, 44, 34, 98, 34, 58, 91, 50, 44, 52, 93, 125] 5, .bytes [123, 34, 107, 34, 58, 51, 125] 0, .bytes [57] 3]

def mJson : BSlice := ⟨0, 0, 17, 22⟩
def mObj : BSlice := ⟨1, 0, 7, 7⟩
def mNine : BSlice := ⟨2, 0, 1, 4⟩

/-- Two parsers of one array, edits with values that they then share, reads, and writes to arrays no longer used. -/
def memFine : List MemCall := memStart ++
  [.parse mJson, .parse mJson, .set 0 mObj [[97]], .add 1 mObj [[98]], .set 0 mNine [[98], [49]], .addKeyValue 1 [122, 122] mNine [],
   .get 0 [[97]], .get 1 [[98], [50]], .getNew 0 [], .bytes [55] 0, .write ⟨9, 0, 1, 1⟩ 0 [56], .insert 1 0 ⟨9, 0, 1, 1⟩ [[98]], .delete 0 [[98]]]

/-- The hypothesis of `C112_sessions` holds of it, -/
example : WorldM.start.fine (fun n => n) memFine := by decide +kernel

/-- and these are its answers; that of `GetNew` shows the extra node which `Set` makes for a container. -/
example : (WorldM.start.run (fun n => n) memFine).map (fun a => match a with
    | .did b none => b | .read (.ok b) => b | .parsed none => [33] | _ => []) =
    ["!".toUTF8.toList, "!".toUTF8.toList,
     "{\"a\":{\"k\":3},\"b\":[2,4]}".toUTF8.toList, "{\"a\":1,\"b\":[2,4,{\"k\":3}]}".toUTF8.toList,
     "{\"a\":{\"k\":3},\"b\":[2,9]}".toUTF8.toList, "{\"a\":1,\"b\":[2,4,{\"k\":3}],\"zz\":9}".toUTF8.toList,
     "{\"k\":3}".toUTF8.toList, "{\"k\":3}".toUTF8.toList, "{\"a\":{\"0\":{\"k\":3}},\"b\":[2,9]}".toUTF8.toList,
     "{\"a\":1,\"b\":[8,2,4,{\"k\":3}],\"zz\":9}".toUTF8.toList, "{\"a\":{\"k\":3}}".toUTF8.toList] := by decide +kernel

/-- The hypotheses of `C113_set`: parser 0 of `memStart`, path `a`, value `9`. -/
example : let w := WorldM.start.after (fun n => n) (memStart ++ [.parse mJson])
    w.parsers.length = 1 ∧ mNine.ok w.mem.bytes ∧ opensContainer (w.mem.bytes.read mNine) = false ∧ ¬ w.uses mNine.blk ∧
    mNine.blk < w.mem.bytes.length ∧
    ∀ p ∈ w.parsers, (match p.Set (fun n => n) w.mem mNine [[97]] with | .done _ _ none => true | _ => false) = true := by decide +kernel

/-- `p.Set(v, "a")`, then `v[0] = '7'`: `Get("a")` gives `7`, `JSON()` still has `9` (seen in the text that the edit of
`b` gives back). -/
example : WorldM.start.run (fun n => n) (memStart ++ [.parse mJson, .set 0 mNine [[97]], .write mNine 0 [55], .get 0 [[97]], .delete 0 [[98]]]) =
    [.parsed none, .did "{\"a\":9,\"b\":[2,4]}".toUTF8.toList none, .read (.ok "7".toUTF8.toList), .did "{\"a\":9}".toUTF8.toList none] := by decide +kernel

/-- Writing to what `Get` gave changes the text: the result is a window on it. -/
example : WorldM.start.run (fun n => n) (memStart ++ [.parse mJson, .get 0 [[98], [48]], .write ⟨0, 12, 1, 10⟩ 0 [55], .get 0 [[98]], .setKey 0 [99] [[97]]]) =
    [.parsed none, .read (.ok [50]), .read (.ok "[7,4]".toUTF8.toList), .did "{\"c\":1,\"b\":[7,4]}".toUTF8.toList none] := by decide +kernel

/-- Reusing the buffer that was parsed, for another document of the same length: the member `a` is gone, `x` is there, and
an edit of `x` edits the new bytes. -/
example : WorldM.start.run (fun n => n) (memStart ++ [.parse mJson, .write mJson 0 "{\"x\":5,\"y\":[6,6]}".toUTF8.toList, .get 0 [[97]], .get 0 [[120]],
      .set 0 mNine [[120]]]) =
    [.parsed none, .read (.err (.keyNotFound [97])), .read (.ok [53]), .did "{\"x\":9,\"y\":[6,6]}".toUTF8.toList none] := by decide +kernel

end Examples

end Jin
