import Verif.Proof.ParserMemOps
import Verif.Proof.PtrWorld
/-!
# Proof.ParserMemWorld — programs with parsers, whose bytes are slices in memory
-/

namespace Jin

/-- A step of a program with byte slices and parsers.  Slices are given as Go has them: array, offset, length, room.
`k` is the number of the parser. -/
inductive MemCall where
  /-- The program makes a slice of its own. -/
  | bytes (x : Bytes) (spare : Nat)
  /-- `copy(s[i:], x)`: the program writes to a slice. -/
  | write (s : BSlice) (i : Nat) (x : Bytes)
  | parse (json : BSlice)
  | set (k : Nat) (newVal : BSlice) (path : List Bytes)
  | setKey (k : Nat) (newKey : Bytes) (path : List Bytes)
  | delete (k : Nat) (path : List Bytes)
  | addKeyValue (k : Nat) (key : Bytes) (newVal : BSlice) (path : List Bytes)
  | add (k : Nat) (newVal : BSlice) (path : List Bytes)
  | insert (k : Nat) (index : Int) (newVal : BSlice) (path : List Bytes)
  | get (k : Nat) (path : List Bytes)
  | getNew (k : Nat) (path : List Bytes)
  | tree (k : Nat) (pad : Bytes → Bytes) (withValues : Bool)

/-- What the program gets from a step. -/
inductive MAns where
  | made (s : BSlice)
  | wrote
  | parsed (err : Option Err)
  | did (json : BSlice) (err : Option Err)
  | read (res : Out BSlice)
  | text (res : Out Bytes)
  | panic
  | noParser

structure WorldM where
  mem : Mem
  parsers : List ParserM

def WorldM.mut (w : WorldM) (k : Nat) (f : Mem → ParserM → PResM) : WorldM × MAns :=
  match w.parsers[k]? with
  | none => (w, .noParser)
  | some p =>
    match f w.mem p with
    | .panic => (w, .panic)
    | .done p' m e => (⟨m, w.parsers.set k p'⟩, .did p'.json e)

/-- One step. -/
def WorldM.step (grow : Nat → Nat) (w : WorldM) : MemCall → WorldM × MAns
  | .bytes x spare =>
    ({ w with mem := { w.mem with bytes := fresh w.mem.bytes x spare } }, .made (freshS w.mem.bytes x spare))
  | .write s i x => ({ w with mem := { w.mem with bytes := w.mem.bytes.write s.blk (s.off + i) x } }, .wrote)
  | .parse json =>
    match ParseM json w.mem with
    | .panic => (w, .panic)
    | .err e => (w, .parsed (some e))
    | .ok (p, m) => (⟨m, w.parsers ++ [p]⟩, .parsed none)
  | .set k newVal path => w.mut k fun m p => p.Set grow m newVal path
  | .setKey k newKey path => w.mut k fun m p => p.SetKey grow m newKey path
  | .delete k path => w.mut k fun m p => p.Delete grow m path
  | .addKeyValue k key newVal path => w.mut k fun m p => p.AddKeyValue grow m key newVal path
  | .add k newVal path => w.mut k fun m p => p.Add grow m newVal path
  | .insert k index newVal path => w.mut k fun m p => p.Insert grow m index newVal path
  | .get k path =>
    match w.parsers[k]? with
    | none => (w, .noParser)
    | some p => (w, .read (p.Get w.mem path))
  | .getNew k path =>
    match w.parsers[k]? with
    | none => (w, .noParser)
    | some p => ({ w with mem := (p.GetNew grow w.mem (2 * w.mem.nodes.length) path).2 }, .read (p.GetNew grow w.mem (2 * w.mem.nodes.length) path).1)
  | .tree k pad b =>
    match w.parsers[k]? with
    | none => (w, .noParser)
    | some p => (w, .text (match (p.see w.mem.bytes).tree w.mem.see w.mem.see.length pad b with
      | some s => .ok s
      | none => .panic))

/-- The parsers and nodes, with the bytes that their slices have at present. -/
def WorldM.see (w : WorldM) : WorldP := ⟨w.mem.see, w.parsers.map (ParserM.see w.mem.bytes)⟩

/-- All slices lie in their arrays. -/
structure WorldM.ok (w : WorldM) : Prop where
  mem : w.mem.ok
  parsers : ∀ p ∈ w.parsers, p.json.ok w.mem.bytes

/-- A slice has bytes, and they are of array `a`. -/
def BSlice.inArray (a : Nat) (s : BSlice) : Prop := s.blk = a ∧ 0 < s.len

/-- A node or a parser has bytes of array `a`. -/
def WorldM.uses (w : WorldM) (a : Nat) : Prop :=
  (∃ p ∈ w.parsers, p.json.inArray a) ∨ ∃ r ∈ w.mem.nodes, r.value.inArray a ∨ ∃ s, r.label = .part s ∧ s.inArray a

/-- Slices that Go can have at this time; what is written lies in the slice, and in an array that no parser uses. -/
def MemCall.ok (w : WorldM) : MemCall → Prop
  | .write s i x => s.ok w.mem.bytes ∧ i + x.length ≤ s.len ∧ ¬ w.uses s.blk
  | .parse s | .set _ s _ | .addKeyValue _ _ s _ | .add _ s _ | .insert _ _ s _ => s.ok w.mem.bytes
  | _ => True

/-- The call with the bytes that its slices have at present. -/
def MemCall.see (w : WorldM) : MemCall → Option PtrCall
  | .bytes _ _ | .write _ _ _ => none
  | .parse s => some (.parse (w.mem.bytes.read s))
  | .set k s path => some (.set k (w.mem.bytes.read s) path)
  | .setKey k key path => some (.setKey k key path)
  | .delete k path => some (.delete k path)
  | .addKeyValue k key s path => some (.addKeyValue k key (w.mem.bytes.read s) path)
  | .add k s path => some (.add k (w.mem.bytes.read s) path)
  | .insert k i s path => some (.insert k i (w.mem.bytes.read s) path)
  | .get k path => some (.get k path)
  | .getNew k path => some (.getNew k path)
  | .tree k pad b => some (.tree k pad b)

def MemCall.isWrite : MemCall → Bool
  | .write _ _ _ => true
  | _ => false

/-- The answer with the bytes that its slice has when it is given. -/
def MAns.see (b : BHeap) : MAns → PAns
  | .made _ | .wrote | .noParser => .noParser
  | .parsed e => .parsed e
  | .did s e => .did (b.read s) e
  | .read (.ok s) => .read (.ok (b.read s))
  | .read (.err e) => .read (.err e)
  | .read .panic => .read .panic
  | .text t => .read t
  | .panic => .panic

variable {w : WorldM} {grow : Nat → Nat}

theorem see_parsers {w : WorldM} {new : List Bytes} (hw : w.ok) :
    w.parsers.map (ParserM.see (w.mem.bytes ++ new)) = w.parsers.map (ParserM.see w.mem.bytes) :=
  List.map_congr_left fun p hp => by
    unfold ParserM.see
    rw [read_append (hw.parsers p hp)]

/-- New arrays change nothing. -/
theorem WorldM.ok.more (hw : w.ok) (new : List Bytes) :
    WorldM.ok { w with mem := { w.mem with bytes := w.mem.bytes ++ new } } ∧
    WorldM.see { w with mem := { w.mem with bytes := w.mem.bytes ++ new } } = w.see := by
  refine ⟨⟨MHeap.ok.more hw.mem, fun p hp => ok_append (hw.parsers p hp)⟩, ?_⟩
  unfold WorldM.see Mem.see
  simp only [see_parsers hw, MHeap.see_more hw.mem]

/-- What a step does. -/
def StepRel (w : WorldM) (c : MemCall) (r : WorldM × MAns) : Prop :=
  r.1.ok ∧ (c.isWrite = false → ∃ new, r.1.mem.bytes = w.mem.bytes ++ new) ∧
  match c.see w with
  | none => r.1.see = w.see
  | some pc => w.see.step pc = (r.1.see, r.2.see r.1.mem.bytes)

theorem mut_rel {k : Nat} {f : Mem → ParserM → PResM} {g : NHeap → ParserP → PResP} (hw : w.ok)
    (hf : ∀ p ∈ w.parsers, PMRel w.mem.bytes (f w.mem p) (g w.mem.see (p.see w.mem.bytes))) :
    (w.mut k f).1.ok ∧ (∃ new, (w.mut k f).1.mem.bytes = w.mem.bytes ++ new) ∧
    w.see.mut k g = ((w.mut k f).1.see, (w.mut k f).2.see (w.mut k f).1.mem.bytes) := by
  unfold WorldM.mut WorldP.mut
  have hk : w.see.parsers[k]? = w.parsers[k]?.map (ParserM.see w.mem.bytes) := List.getElem?_map ..
  rw [hk]
  cases hp : w.parsers[k]? with
  | none => exact ⟨hw, ⟨[], by simp⟩, rfl⟩
  | some p =>
    have hpm : p ∈ w.parsers := List.mem_of_getElem? hp
    have := hf p hpm
    simp only [Option.map_some]
    rw [show w.see.heap = w.mem.see from rfl]
    cases h1 : f w.mem p <;> cases h2 : g w.mem.see (p.see w.mem.bytes) <;> rw [h1, h2] at this <;> first | exact this.elim | skip
    · obtain ⟨rfl, ⟨new, e⟩, h3, h4, rfl, rfl⟩ := this
      rename_i p' m _
      simp only at e ⊢
      refine ⟨⟨h3, ?_⟩, ⟨new, e⟩, ?_⟩
      · intro q hq
        rcases List.mem_or_eq_of_mem_set hq with hq | rfl
        · show q.json.ok m.bytes
          rw [e]; exact ok_append (hw.parsers q hq)
        · exact h4
      · show (WorldP.mk m.see ((w.parsers.map (ParserM.see w.mem.bytes)).set k (p'.see m.bytes)), PAns.did (m.bytes.read p'.json) _) = _
        have : (w.parsers.set k p').map (ParserM.see m.bytes) = (w.parsers.map (ParserM.see w.mem.bytes)).set k (p'.see m.bytes) := by
          rw [List.map_set, e, see_parsers hw]
        unfold WorldM.see
        rw [this]
        rfl
    · exact ⟨hw, ⟨[], by simp⟩, rfl⟩

/-- A write does not reach a slice without bytes in that array. -/
theorem write_apart {h : BHeap} {a n : Nat} {t : BSlice} {x : Bytes} (ht : ¬ t.inArray a) : (h.write a n x).read t = h.read t := by
  by_cases hb : t.blk = a
  · have : t.len = 0 := by
      have : ¬ 0 < t.len := fun h => ht ⟨hb, h⟩
      omega
    unfold BHeap.read
    rw [this, List.take_zero, List.take_zero]
  · exact write_other hb

/-- A write in a slice leaves the arrays as long as they are. -/
theorem write_size {h : BHeap} {s : BSlice} {i : Nat} {x : Bytes} (hs : s.ok h) (hx : i + x.length ≤ s.len) (a : Nat) :
    ((h.write s.blk (s.off + i) x).block a).length = (h.block a).length := by
  obtain ⟨h1, h2⟩ := hs
  unfold BHeap.write BHeap.block at *
  by_cases ha : s.blk = a
  · subst ha
    rw [List.getElem?_modify_eq]
    cases hb : h[s.blk]? with
    | none => rfl
    | some c =>
      rw [hb] at h2
      simp only [Option.getD_some] at h2
      show (c.take (s.off + i) ++ x ++ c.drop (s.off + i + x.length)).length = c.length
      simp only [List.length_append, List.length_take, List.length_drop]
      omega
  · rw [List.getElem?_modify_ne _ _ ha]

theorem write_see {s : BSlice} {i : Nat} {x : Bytes} (hw : w.ok) (hs : s.ok w.mem.bytes) (hx : i + x.length ≤ s.len) (hu : ¬ w.uses s.blk) :
    WorldM.ok { w with mem := { w.mem with bytes := w.mem.bytes.write s.blk (s.off + i) x } } ∧
    WorldM.see { w with mem := { w.mem with bytes := w.mem.bytes.write s.blk (s.off + i) x } } = w.see := by
  have hne : ∀ t : BSlice, ¬ t.inArray s.blk → (w.mem.bytes.write s.blk (s.off + i) x).read t = w.mem.bytes.read t := fun t ht => write_apart ht
  have hok : ∀ t : BSlice, t.ok w.mem.bytes → t.ok (w.mem.bytes.write s.blk (s.off + i) x) :=
    fun t hk => ⟨hk.1, by rw [write_size hs hx]; exact hk.2⟩
  have hp : ∀ p ∈ w.parsers, ¬ p.json.inArray s.blk := fun p hp e => hu (.inl ⟨p, hp, e⟩)
  have hv : ∀ r ∈ w.mem.nodes, ¬ r.value.inArray s.blk := fun r hr e => hu (.inr ⟨r, hr, .inl e⟩)
  have hl : ∀ r ∈ w.mem.nodes, ∀ t, r.label = .part t → ¬ t.inArray s.blk := fun r hr t ht e => hu (.inr ⟨r, hr, .inr ⟨t, ht, e⟩⟩)
  refine ⟨⟨fun r hr => ⟨?_, hok _ (hw.mem r hr).2⟩, fun p h => hok _ (hw.parsers p h)⟩, ?_⟩
  · have h1 := (hw.mem r hr).1
    cases e : r.label with
    | str _ => trivial
    | part t => rw [e] at h1; exact hok _ h1
  · unfold WorldM.see Mem.see MHeap.see
    congr 1
    · refine List.map_congr_left fun r hr => ?_
      unfold NodeM.see
      rw [hne _ (hv r hr)]
      have hlr := hl r hr
      cases e : r.label with
      | str _ => rfl
      | part t =>
        show NodeRec.mk ((w.mem.bytes.write s.blk (s.off + i) x).read t) _ _ _ = NodeRec.mk (w.mem.bytes.read t) _ _ _
        rw [hne _ (hlr t e)]
    · refine List.map_congr_left fun p h => ?_
      unfold ParserM.see
      rw [hne _ (hp p h)]

theorem read_see {b : BHeap} {x : Out BSlice} {y : Out Bytes} (h : ReadRel b x y) : PAns.read y = (MAns.read x).see b := by
  cases x <;> cases y <;> first | exact h.elim | skip
  · obtain ⟨-, rfl⟩ := h; rfl
  · obtain rfl := h; rfl
  · rfl

theorem look_none {k : Nat} {f : NHeap → ParserP → Out Bytes} (hp : w.parsers[k]? = none) : w.see.look k f = (w.see, .noParser) := by
  unfold WorldP.look
  rw [show w.see.parsers[k]? = w.parsers[k]?.map (ParserM.see w.mem.bytes) from List.getElem?_map .., hp]
  rfl

theorem look_some {k : Nat} {f : NHeap → ParserP → Out Bytes} {p : ParserM} (hp : w.parsers[k]? = some p) :
    w.see.look k f = (w.see, .read (f w.mem.see (p.see w.mem.bytes))) := by
  unfold WorldP.look
  rw [show w.see.parsers[k]? = w.parsers[k]?.map (ParserM.see w.mem.bytes) from List.getElem?_map .., hp]
  rfl

theorem step_rel (hw : w.ok) (c : MemCall) (hc : c.ok w) : StepRel w c (w.step grow c) := by
  cases c with
  | bytes x spare =>
    obtain ⟨h1, h2⟩ := hw.more [x ++ List.replicate spare 0]
    exact ⟨h1, fun _ => ⟨_, rfl⟩, h2⟩
  | write s i x =>
    obtain ⟨h1, h2⟩ := write_see (i := i) (x := x) hw hc.1 hc.2.1 hc.2.2
    exact ⟨h1, (fun h => nomatch h), h2⟩
  | parse s =>
    have := parse_rel (json := s) hc hw.mem
    unfold StepRel WorldM.step
    show _ ∧ _ ∧ w.see.step (.parse (w.mem.bytes.read s)) = _
    unfold WorldP.step
    rw [show w.see.heap = w.mem.see from rfl]
    simp only
    cases h1 : ParseM s w.mem <;> cases h2 : ParseP (w.mem.bytes.read s) w.mem.see <;> rw [h1, h2] at this <;> first | exact this.elim | skip
    · rename_i x y
      obtain ⟨p, m⟩ := x
      obtain ⟨q, h⟩ := y
      obtain ⟨e1, e2, e3, rfl, rfl⟩ := this
      refine ⟨⟨e2, ?_⟩, fun _ => ⟨[], by simp [e1]⟩, ?_⟩
      · intro q hq
        show q.json.ok m.bytes
        rw [e1]
        rcases List.mem_append.1 hq with hq | hq
        · exact hw.parsers q hq
        · rw [List.mem_singleton.1 hq, e3]; exact hc
      · unfold WorldM.see
        simp only [List.map_append, List.map_cons, List.map_nil, e1]
        rfl
    · obtain rfl := this
      exact ⟨hw, fun _ => ⟨[], by simp⟩, rfl⟩
    · exact ⟨hw, fun _ => ⟨[], by simp⟩, rfl⟩
  | set k s path =>
    obtain ⟨h1, h2, h3⟩ := mut_rel (k := k) (f := fun m p => p.Set grow m s path) (g := fun h p => p.Set h (w.mem.bytes.read s) path) hw
      (fun p hp => set_rel hw.mem (hw.parsers p hp) hc path)
    exact ⟨h1, fun _ => h2, h3⟩
  | setKey k key path =>
    obtain ⟨h1, h2, h3⟩ := mut_rel (k := k) (f := fun m p => p.SetKey grow m key path) (g := fun h p => p.SetKey h key path) hw
      (fun p hp => setKey_rel hw.mem (hw.parsers p hp) key path)
    exact ⟨h1, fun _ => h2, h3⟩
  | delete k path =>
    obtain ⟨h1, h2, h3⟩ := mut_rel (k := k) (f := fun m p => p.Delete grow m path) (g := fun h p => p.Delete h path) hw
      (fun p hp => delete_rel hw.mem (hw.parsers p hp) path)
    exact ⟨h1, fun _ => h2, h3⟩
  | addKeyValue k key s path =>
    obtain ⟨h1, h2, h3⟩ := mut_rel (k := k) (f := fun m p => p.AddKeyValue grow m key s path)
      (g := fun h p => p.AddKeyValue h key (w.mem.bytes.read s) path) hw
      (fun p hp => addKeyValue_rel hw.mem (hw.parsers p hp) hc key path)
    exact ⟨h1, fun _ => h2, h3⟩
  | add k s path =>
    obtain ⟨h1, h2, h3⟩ := mut_rel (k := k) (f := fun m p => p.Add grow m s path) (g := fun h p => p.Add h (w.mem.bytes.read s) path) hw
      (fun p hp => add_rel hw.mem (hw.parsers p hp) hc path)
    exact ⟨h1, fun _ => h2, h3⟩
  | insert k i s path =>
    obtain ⟨h1, h2, h3⟩ := mut_rel (k := k) (f := fun m p => p.Insert grow m i s path) (g := fun h p => p.Insert h i (w.mem.bytes.read s) path) hw
      (fun p hp => insert_rel hw.mem (hw.parsers p hp) hc i path)
    exact ⟨h1, fun _ => h2, h3⟩
  | get k path =>
    cases hp : w.parsers[k]? with
    | none =>
      have e : w.step grow (.get k path) = (w, .noParser) := by simp only [WorldM.step, hp]
      rw [e]
      refine ⟨hw, fun _ => ⟨[], by simp⟩, ?_⟩
      show w.see.step (.get k path) = _
      rw [WorldP.step, look_none hp]
      rfl
    | some p =>
      have e : w.step grow (.get k path) = (w, .read (p.Get w.mem path)) := by simp only [WorldM.step, hp]
      rw [e]
      refine ⟨hw, fun _ => ⟨[], by simp⟩, ?_⟩
      show w.see.step (.get k path) = _
      rw [WorldP.step, look_some hp]
      rw [read_see (get_rel hw.mem (hw.parsers p (List.mem_of_getElem? hp)) path)]
  | getNew k path =>
    cases hp : w.parsers[k]? with
    | none =>
      have e : w.step grow (.getNew k path) = (w, .noParser) := by simp only [WorldM.step, hp]
      rw [e]
      refine ⟨hw, fun _ => ⟨[], by simp⟩, ?_⟩
      show w.see.step (.getNew k path) = _
      rw [WorldP.step, look_none hp]
      rfl
    | some p =>
      obtain ⟨⟨new, h1⟩, h2, h3⟩ := getNew_rel (grow := grow) (p := p) hw.mem (2 * w.mem.nodes.length) path
      have mk : ∀ a c : Mem, a.bytes = c.bytes → a.nodes = c.nodes → a = c := by rintro ⟨_, _⟩ ⟨_, _⟩ rfl rfl; rfl
      have e1 : (p.GetNew grow w.mem (2 * w.mem.nodes.length) path).2 = { w.mem with bytes := w.mem.bytes ++ new } := mk _ _ h1 h2
      have e : w.step grow (.getNew k path) = ({ w with mem := { w.mem with bytes := w.mem.bytes ++ new } },
          .read (p.GetNew grow w.mem (2 * w.mem.nodes.length) path).1) := by
        rw [← e1]
        simp only [WorldM.step, hp]
      rw [e]
      obtain ⟨m1, m2⟩ := hw.more new
      refine ⟨m1, fun _ => ⟨new, rfl⟩, ?_⟩
      show w.see.step (.getNew k path) = _
      rw [WorldP.step, look_some hp]
      rw [show w.mem.see.length = w.mem.nodes.length from see_length, read_see h3, m2, h1]
  | tree k pad b =>
    cases hp : w.parsers[k]? with
    | none =>
      have e : w.step grow (.tree k pad b) = (w, .noParser) := by simp only [WorldM.step, hp]
      rw [e]
      refine ⟨hw, fun _ => ⟨[], by simp⟩, ?_⟩
      show w.see.step (.tree k pad b) = _
      rw [WorldP.step, look_none hp]
      rfl
    | some p =>
      refine ⟨?_, fun _ => ⟨[], ?_⟩, ?_⟩
      · simp only [WorldM.step, hp]; exact hw
      · simp only [WorldM.step, hp, List.append_nil]
      · show w.see.step (.tree k pad b) = _
        rw [WorldP.step, look_some hp]
        simp only [WorldM.step, hp]
        rfl

end Jin
