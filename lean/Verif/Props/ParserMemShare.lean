import Verif.Props.ParserMem
import Verif.Props.IterMem
/-!
# Props.ParserMemShare — which slices a parser keeps (C115)
-/

namespace Jin
variable {grow : Nat → Nat} {old h : MHeap} {v j : BSlice} {m : Mem} {p : ParserM} {path : List Bytes}

/-- Where the bytes of a node are from: its value is no slice, a part of the value `v` given, a part of the text `j`, or
the value of a node from before; its label is a string of its own, or a part of `v`, or that of a node from before. -/
def NodeM.src (old : MHeap) (v j : BSlice) (r : NodeM) : Prop :=
  (r.value = .nil ∨ Window v r.value ∨ Window j r.value ∨ ∃ o ∈ old, o.value = r.value) ∧
  ∀ s, r.label = .part s → s = .nil ∨ Window v s ∨ ∃ o ∈ old, o.label = .part s

theorem keeps_src (old : MHeap) (v j : BSlice) : KeepsParts v (NodeM.src old v j) where
  new h := ⟨h.1.elim .inl fun h => .inr (.inl h), fun s hs => (h.2 s hs).elim .inl fun h => .inr (.inl h)⟩
  down h := h
  value h hv := ⟨.inr (.inl hv), h.2⟩

abbrev MHeap.Src (old : MHeap) (v j : BSlice) (h : MHeap) : Prop := h.From (NodeM.src old v j) 0

theorem src_self (old : MHeap) (v j : BSlice) : old.Src v j old := fun _ r _ hr =>
  have hm := List.mem_of_getElem? hr
  ⟨.inr (.inr (.inr ⟨r, hm, rfl⟩)), fun _ hs => .inr (.inr ⟨r, hm, hs⟩)⟩

theorem Src.setDown (hh : MHeap.Src old v j h) (q : Nat) (d : List Nat) : MHeap.Src old v j (h.setDown q d) :=
  from_modify (f := fun r => { r with down := d }) hh (fun _ hr => hr) q

theorem Src.addDown (hh : MHeap.Src old v j h) (q d : Nat) : MHeap.Src old v j (h.addDown q d) :=
  from_modify (f := fun r => { r with down := r.down ++ [d] }) hh (fun _ hr => hr) q

theorem Src.setUp (hh : MHeap.Src old v j h) (q : Nat) (u : Option Nat) : MHeap.Src old v j (h.setUp q u) :=
  from_modify (f := fun r => { r with up := u }) hh (fun _ hr => hr) q

theorem Src.attach (hh : MHeap.Src old v j h) (c q : Nat) : MHeap.Src old v j (h.attach c q) := Src.setUp (Src.addDown hh c q) q _

theorem Src.given (hh : MHeap.Src old v j h) (q : Nat) : MHeap.Src old v j (h.setValue q v) :=
  from_modify (f := fun r => { r with value := v }) hh (fun _ hr => ⟨.inr (.inl Window.rfl), hr.2⟩) q

theorem Src.text {t : BSlice} (ht : Window j t) (hh : MHeap.Src old v j h) (q : Nat) : MHeap.Src old v j (h.setValue q t) :=
  from_modify (f := fun r => { r with value := t }) hh (fun _ hr => ⟨.inr (.inr (.inl ht)), hr.2⟩) q

theorem Src.nil (hh : MHeap.Src old v j h) (q : Nat) : MHeap.Src old v j (h.setValue q .nil) :=
  from_modify (f := fun r => { r with value := .nil }) hh (fun _ hr => ⟨.inl rfl, hr.2⟩) q

theorem Src.str (hh : MHeap.Src old v j h) (q : Nat) (b : Bytes) : MHeap.Src old v j (h.setLabel q (.str b)) :=
  from_modify (f := fun r => { r with label := .str b }) hh (fun _ hr => ⟨hr.1, fun _ hs => by cases hs⟩) q

theorem Src.label (hh : MHeap.Src old v j h) {i : Nat} {r : NodeM} (hr : h[i]? = some r) (q : Nat) : MHeap.Src old v j (h.setLabel q r.label) :=
  from_modify (f := fun x => { x with label := r.label }) hh (fun _ hx => ⟨hx.1, (hh i r (Nat.zero_le _) hr).2⟩) q

theorem Src.create (hh : MHeap.Src old v j h) (up : Option Nat) : MHeap.Src old v j (createNodeM h up).1 :=
  from_append hh ⟨.inl rfl, fun _ hs => by cases hs⟩

theorem Src.core {b : BHeap} {q : Nat} {x : MHeap} (hv : v.ok b) (hh : MHeap.Src old v j h) (hx : pCoreM b v q h = some x) :
    MHeap.Src old v j x := pCore_inside (keeps_src old v j) hv hh hx

theorem Src.climb {b : BHeap} (hj : j.ok b) : ∀ (qs : List (List Bytes)) (curr : Nat) (h : MHeap), MHeap.Src old v j h →
    ∀ x, climbM b j qs curr h = some x → MHeap.Src old v j x.1
  | [], _, h, hh, x, hx => by cases hx; exact hh
  | q :: qs, curr, h, hh, x, hx => by
    rw [climbM] at hx
    cases hu : h[curr]?.bind NodeM.up with
    | none => rw [hu] at hx; cases hx
    | some u =>
      rw [hu] at hx
      simp only at hx
      cases hg : GetMem b j q with
      | panic => rw [hg] at hx; cases hx
      | err e => rw [hg] at hx; cases hx; exact Src.nil hh u
      | ok t =>
        rw [hg] at hx
        exact Src.climb hj qs u _ (Src.text (getMem_window hj hg) hh u) x hx

theorem Src.climbQuiet {b : BHeap} (hj : j.ok b) : ∀ (qs : List (List Bytes)) (curr : Nat) (h : MHeap), MHeap.Src old v j h →
    ∀ x, climbQuietM b j qs curr h = some x → MHeap.Src old v j x
  | [], _, h, hh, x, hx => by cases hx; exact hh
  | q :: qs, curr, h, hh, x, hx => by
    rw [climbQuietM] at hx
    cases hu : h[curr]?.bind NodeM.up with
    | none => rw [hu] at hx; cases hx
    | some u =>
      rw [hu] at hx
      simp only at hx
      cases hg : GetMem b j q with
      | panic => rw [hg] at hx; cases hx
      | err e => rw [hg] at hx; exact Src.climbQuiet hj qs u _ (Src.nil hh u) x hx
      | ok t =>
        rw [hg] at hx
        exact Src.climbQuiet hj qs u _ (Src.text (getMem_window hj hg) hh u) x hx

/-- Of the nodes after a method, by the value given to it and the text that the parser has then. -/
def PResM.src (old : MHeap) (v : BSlice) : PResM → Prop
  | .panic => True
  | .done p m _ => MHeap.Src old v p.json m.nodes

theorem finish_src {b : BHeap} (hj : j.ok b) (qs : List (List Bytes)) (curr : Nat) (hh : MHeap.Src old v j h) :
    (finishM p b j qs curr h).src old v := by
  unfold finishM
  split
  · trivial
  · rename_i e
    exact Src.climb hj qs curr h hh _ e

theorem apart_ok {r : MutS × BHeap} {x : Mut} {s : BSlice} {e : Option Err} {b' : BHeap} (hp : p.json.ok m.bytes) (ha : Apart m.bytes p.json r x)
    (hr : r = (.done s e, b')) : s.ok b' := by
  subst hr
  obtain ⟨⟨new, e1⟩, ha⟩ := ha
  simp only at e1
  cases e with
  | none => exact ha.2.2.1
  | some e => rw [ha.1, e1]; exact ok_append hp

theorem relabel_src (index : Nat) : ∀ (ds : List Nat) (i : Nat) (h : MHeap), MHeap.Src old v j h → MHeap.Src old v j (relabelM index i ds h)
  | [], _, _, hh => hh
  | d :: ds, i, h, hh => by
    rw [relabelM]
    refine relabel_src index ds _ _ ?_
    split
    · exact Src.str hh _ _
    · exact hh

theorem insertNode_src {n up : Nat} {index : Int} {x : MHeap} (hh : MHeap.Src old v j h) (hx : h.insert n up index = .ok x) : MHeap.Src old v j x := by
  unfold MHeap.insert at hx
  repeat' (first | cases hx | split at hx)
  exact Src.setUp (Src.str (relabel_src _ _ _ _ hh) _ _) _ _

theorem newNode_src {c : Bool} {l : Bytes} {x : MHeap × Nat} (hv : v.ok m.bytes) (hx : newNodeM m c l v = some x) : MHeap.Src m.nodes v j x.1 := by
  unfold newNodeM at hx
  simp only at hx
  have h0 := Src.create (src_self m.nodes v j) none
  split at hx
  · split at hx
    · cases hx
    · rename_i e
      cases hx
      exact Src.given (Src.str (Src.core hv h0 e) _ _) _
  · cases hx
    exact Src.given (Src.str h0 _ _) _

theorem bareNode_src {c : Bool} {x : MHeap × Nat} (hv : v.ok m.bytes) (hx : bareNodeM m c v = some x) : MHeap.Src m.nodes v j x.1 := by
  unfold bareNodeM at hx
  simp only at hx
  have h0 := Src.create (src_self m.nodes v j) none
  split at hx
  · cases e : pCoreM m.bytes v (createNodeM m.nodes none).2 (createNodeM m.nodes none).1 with
    | none => rw [e] at hx; cases hx
    | some y => rw [e] at hx; cases hx; exact Src.core hv h0 e
  · cases hx
    exact h0

theorem deAttach_src {n : Nat} {x : MHeap} (hx : m.deAttach n = some x) : MHeap.Src m.nodes v j x := by
  unfold Mem.deAttach at hx
  repeat' (first | cases hx | split at hx)
  exact Src.setDown (src_self _ _ _) _ _

/-- **C115** What `Set` keeps. -/
theorem C115_kept_set (hp : p.json.ok m.bytes) (hv : v.ok m.bytes) : (p.Set grow m v path).src m.nodes v := by
  have ha := C93_set grow v path hp hv
  unfold ParserM.Set
  simp only
  split
  · exact src_self _ _ _
  split
  · trivial
  · exact src_self _ _ _
  rename_i curr _
  split
  · split
    · trivial
    rename_i h1 e1
    split
    · trivial
    rename_i r hr
    split
    · split
      · trivial
      split
      · split
        · trivial
        · rename_i e2
          refine finish_src (apart_ok hp ha e2) _ _ (Src.given (Src.setDown (Src.setUp (Src.label ?_ hr _) _ _) _ _) _)
          exact Src.core hv (Src.create (src_self m.nodes v _) none) e1
      · trivial
    · trivial
  · split
    · trivial
    · rename_i e2
      exact finish_src (apart_ok hp ha e2) _ _ (Src.given (src_self m.nodes v _) _)

/-- **C115** What `SetKey` keeps: of what was given, nothing. -/
theorem C115_kept_setKey {key : Bytes} (hp : p.json.ok m.bytes) : (p.SetKey grow m key path).src m.nodes .nil := by
  have ha := C93_setKey grow key path hp
  unfold ParserM.SetKey
  simp only
  split
  · exact src_self _ _ _
  split
  · exact src_self _ _ _
  split
  · trivial
  · exact src_self _ _ _
  split
  · trivial
  split
  · exact src_self _ _ _
  split
  · trivial
  rename_i e2
  split
  · trivial
  · rename_i e3
    exact Src.climbQuiet (apart_ok hp ha e2) _ _ _ (Src.str (src_self m.nodes _ _) _ _) _ e3

/-- **C115** What `Delete` keeps. -/
theorem C115_kept_delete (hp : p.json.ok m.bytes) : (p.Delete grow m path).src m.nodes .nil := by
  have ha := C93_delete grow path hp
  unfold ParserM.Delete
  split
  · exact src_self _ _ _
  split
  · trivial
  · exact src_self _ _ _
  split
  · trivial
  rename_i e1
  split
  · trivial
  · exact deAttach_src e1
  · rename_i e2
    exact finish_src (apart_ok hp ha e2) _ _ (deAttach_src e1)

/-- **C115** What `AddKeyValue` keeps. -/
theorem C115_kept_addKeyValue {key : Bytes} (hp : p.json.ok m.bytes) (hv : v.ok m.bytes) :
    (p.AddKeyValue grow m key v path).src m.nodes v := by
  have ha := C93_addKeyValue grow key (some v) path hp
  have hn : ∀ {c : Bool} {x : MHeap × Nat} {j : BSlice}, newNodeM m c key v = some x → MHeap.Src m.nodes v j x.1 := newNode_src hv
  unfold ParserM.AddKeyValue
  simp only
  repeat' (first
    | trivial
    | exact src_self _ _ _
    | exact Src.attach (hn (by assumption)) _ _
    | exact finish_src (apart_ok hp ha (by assumption)) _ _ (Src.attach (hn (by assumption)) _ _)
    | split)

/-- **C115** What `Add` keeps. -/
theorem C115_kept_add (hp : p.json.ok m.bytes) (hv : v.ok m.bytes) : (p.Add grow m v path).src m.nodes v := by
  have ha := C93_add grow v path hp hv
  have hn : ∀ {c : Bool} {l : Bytes} {x : MHeap × Nat} {j : BSlice}, newNodeM m c l v = some x → MHeap.Src m.nodes v j x.1 := newNode_src hv
  unfold ParserM.Add
  simp only
  repeat' (first
    | trivial
    | exact src_self _ _ _
    | exact Src.attach (hn (by assumption)) _ _
    | exact finish_src (apart_ok hp ha (by assumption)) _ _ (Src.attach (hn (by assumption)) _ _)
    | split)

/-- **C115** What `Insert` keeps. -/
theorem C115_kept_insert {index : Int} (hp : p.json.ok m.bytes) (hv : v.ok m.bytes) : (p.Insert grow m index v path).src m.nodes v := by
  have ha := C93_insert grow index v path hp hv
  have hn : ∀ {c : Bool} {x : MHeap × Nat} {j : BSlice}, bareNodeM m c v = some x → MHeap.Src m.nodes v j x.1 := bareNode_src hv
  unfold ParserM.Insert
  simp only
  split
  · exact src_self _ _ _
  split
  · trivial
  · exact src_self _ _ _
  split
  · trivial
  · exact src_self _ _ _
  split
  · exact src_self _ _ _
  split
  · trivial
  rename_i e1
  split
  · trivial
  · exact hn e1
  rename_i e2
  have hi : ∀ {j : BSlice}, MHeap.Src m.nodes v j _ := fun {j} => insertNode_src (hn (j := j) e1) e2
  split
  · split
    · split
      · trivial
      · exact hi
      · split
        · trivial
        · exact hi
        · rename_i e3
          exact Src.attach (insertNode_src hi e3) _ _
    · split
      · trivial
      · exact Src.addDown (Src.given hi _) _ _
      · split
        · trivial
        · exact Src.addDown (Src.given hi _) _ _
        · rename_i e3
          exact Src.setUp (insertNode_src (Src.addDown (Src.given hi _) _ _) e3) _ _
  · split
    · trivial
    · exact Src.attach (Src.given hi _) _ _
    · rename_i e3
      exact finish_src (apart_ok hp ha e3) _ _ (Src.attach (Src.given hi _) _ _)

/-- **C115** What `Parse` keeps, of all nodes. -/
theorem C115_kept_parse {json : BSlice} {m' : Mem} (hj : json.ok m.bytes) (hp : ParseM json m = .ok (p, m')) :
    p.json = json ∧ MHeap.Src m.nodes json json m'.nodes := by
  refine ⟨(C113_parse hj hp).1, ?_⟩
  unfold ParseM at hp
  simp only at hp
  split at hp
  · cases hp
  rename_i e
  have := Src.core (j := json) hj (Src.create (src_self m.nodes json json) none) e
  repeat' (first | cases hp | split at hp)
  exact this

/-! ### C115: which arrays a program may write to -/

/-- The slice that a call gives to a parser. -/
def MemCall.given : MemCall → Option BSlice
  | .parse s | .set _ s _ | .addKeyValue _ _ s _ | .add _ s _ | .insert _ _ s _ => some s
  | _ => none

theorem window_array {s t : BSlice} {a : Nat} (hw : Window s t) (ht : t.inArray a) : s.inArray a := by
  obtain ⟨h1, h2, h3, h4⟩ := hw
  obtain ⟨h5, h6⟩ := ht
  exact ⟨by rw [← h5, h1], by omega⟩

theorem nil_array {a : Nat} : ¬ BSlice.nil.inArray a := fun h => absurd h.2 (by decide)

theorem src_array {r : NodeM} {a : Nat} (hr : r.src old v j) (ha : r.value.inArray a ∨ ∃ s, r.label = .part s ∧ s.inArray a) :
    v.inArray a ∨ j.inArray a ∨ ∃ o ∈ old, o.value.inArray a ∨ ∃ s, o.label = .part s ∧ s.inArray a := by
  obtain ⟨h1, h2⟩ := hr
  rcases ha with ha | ⟨s, hs, ha⟩
  · rcases h1 with e | h | h | ⟨o, ho, e⟩
    · rw [e] at ha; exact (nil_array ha).elim
    · exact .inl (window_array h ha)
    · exact .inr (.inl (window_array h ha))
    · exact .inr (.inr ⟨o, ho, .inl (e ▸ ha)⟩)
  · rcases h2 s hs with e | h | ⟨o, ho, e⟩
    · rw [e] at ha; exact (nil_array ha).elim
    · exact .inl (window_array h ha)
    · exact .inr (.inr ⟨o, ho, .inr ⟨s, e, ha⟩⟩)

theorem mut_uses {w : WorldM} {f : Mem → ParserM → PResM} {k a : Nat}
    (hf : ∀ p ∈ w.parsers, (f w.mem p).text (newText w.mem p)) (hn : ∀ p ∈ w.parsers, (f w.mem p).src w.mem.nodes v)
    (ha : (w.mut k f).1.uses a) : w.uses a ∨ v.inArray a ∨ w.mem.bytes.length ≤ a := by
  unfold WorldM.mut at ha
  cases hk : w.parsers[k]? with
  | none => rw [hk] at ha; exact .inl ha
  | some p =>
    rw [hk] at ha
    have hp := List.mem_of_getElem? hk
    have h1 := hf p hp
    have h2 := hn p hp
    simp only at ha
    cases hr : f w.mem p with
    | panic => rw [hr] at ha; exact .inl ha
    | done p' m e =>
      rw [hr] at ha h1 h2
      have ht : p'.json.inArray a → w.uses a ∨ w.mem.bytes.length ≤ a := by
        intro h
        rcases h1 with e | h3
        · rw [e] at h; exact .inl (.inl ⟨p, hp, h⟩)
        · exact .inr (h.1 ▸ h3)
      rcases ha with ⟨q, hq, ha⟩ | ⟨r, hr, ha⟩
      · rcases List.mem_or_eq_of_mem_set hq with hq | rfl
        · exact .inl (.inl ⟨q, hq, ha⟩)
        · exact (ht ha).elim .inl fun h => .inr (.inr h)
      · obtain ⟨i, hi⟩ := List.getElem?_of_mem hr
        rcases src_array (h2 i r (Nat.zero_le _) hi) ha with h | h | ⟨o, ho, h⟩
        · exact .inr (.inl h)
        · exact (ht h).elim .inl fun h => .inr (.inr h)
        · exact .inl (.inr ⟨o, ho, h⟩)

/-- **C115** After a step a parser uses no other arrays than before, that of the slice given, and new ones. -/
theorem step_uses {w : WorldM} (hw : w.ok) (c : MemCall) (hc : c.ok w) {a : Nat} (ha : (w.step grow c).1.uses a) :
    w.uses a ∨ (∃ s, c.given = some s ∧ s.inArray a) ∨ w.mem.bytes.length ≤ a := by
  have hno : w.uses a ∨ BSlice.nil.inArray a ∨ w.mem.bytes.length ≤ a → w.uses a ∨ (∃ s, c.given = some s ∧ s.inArray a) ∨ w.mem.bytes.length ≤ a :=
    fun h => h.elim .inl fun h => h.elim (fun h => (nil_array h).elim) fun h => .inr (.inr h)
  have hyes : ∀ {s : BSlice}, c.given = some s → w.uses a ∨ s.inArray a ∨ w.mem.bytes.length ≤ a →
      w.uses a ∨ (∃ s, c.given = some s ∧ s.inArray a) ∨ w.mem.bytes.length ≤ a :=
    fun e h => h.elim .inl fun h => h.elim (fun h => .inr (.inl ⟨_, e, h⟩)) fun h => .inr (.inr h)
  have hp := hw.parsers
  cases c with
  | bytes x n => exact .inl ha
  | write s i x => exact .inl ha
  | parse s =>
    unfold WorldM.step at ha
    simp only at ha
    cases h1 : ParseM s w.mem with
    | panic => rw [h1] at ha; exact .inl ha
    | err e => rw [h1] at ha; exact .inl ha
    | ok x =>
      rw [h1] at ha
      obtain ⟨h2, h3⟩ := C115_kept_parse hc h1
      rcases ha with ⟨q, hq, ha⟩ | ⟨r, hr, ha⟩
      · rcases List.mem_append.1 hq with hq | hq
        · exact .inl (.inl ⟨q, hq, ha⟩)
        · rw [List.mem_singleton.1 hq, h2] at ha
          exact .inr (.inl ⟨s, rfl, ha⟩)
      · obtain ⟨i, hi⟩ := List.getElem?_of_mem hr
        rcases src_array (h3 i r (Nat.zero_le _) hi) ha with h | h | ⟨o, ho, h⟩
        · exact .inr (.inl ⟨s, rfl, h⟩)
        · exact .inr (.inl ⟨s, rfl, h⟩)
        · exact .inl (.inr ⟨o, ho, h⟩)
  | set j v path => exact hyes rfl (mut_uses (fun p h => set_text (hp p h) hc) (fun p h => C115_kept_set (hp p h) hc) ha)
  | setKey j key path => exact hno (mut_uses (fun p h => setKey_text (hp p h)) (fun p h => C115_kept_setKey (hp p h)) ha)
  | delete j path => exact hno (mut_uses (fun p h => delete_text (hp p h)) (fun p h => C115_kept_delete (hp p h)) ha)
  | addKeyValue j key v path => exact hyes rfl (mut_uses (fun p h => addKeyValue_text (hp p h)) (fun p h => C115_kept_addKeyValue (hp p h) hc) ha)
  | add j v path => exact hyes rfl (mut_uses (fun p h => add_text (hp p h) hc) (fun p h => C115_kept_add (hp p h) hc) ha)
  | insert j i v path => exact hyes rfl (mut_uses (fun p h => insert_text (hp p h) hc) (fun p h => C115_kept_insert (hp p h) hc) ha)
  | get j path => unfold WorldM.step at ha; simp only at ha; split at ha <;> exact .inl ha
  | getNew j path =>
    unfold WorldM.step at ha
    simp only at ha
    split at ha
    · exact .inl ha
    · rename_i p hk
      obtain ⟨-, h2, -⟩ := getNew_rel (grow := grow) (p := p) hw.mem (2 * w.mem.nodes.length) path
      rcases ha with ha | ⟨r, hr, ha⟩
      · exact .inl (.inl ha)
      · exact .inl (.inr ⟨r, h2 ▸ hr, ha⟩)
  | tree j pad b => unfold WorldM.step at ha; simp only at ha; split at ha <;> exact .inl ha

/-- The arrays of the program's own after a step: those it has made and not given to a parser. -/
def MemCall.own (w : WorldM) (own : List Nat) : MemCall → List Nat
  | .bytes _ _ => w.mem.bytes.length :: own
  | c => match c.given with
    | none => own
    | some s => own.filter (· != s.blk)

/-- What is written is in an array of the program's own. -/
def MemCall.inOwn (own : List Nat) : MemCall → Prop
  | .write s _ _ => s.blk ∈ own
  | _ => True

/-- A program that writes only to arrays that it made itself and has given to no parser so far. -/
def WorldM.careful (grow : Nat → Nat) (w : WorldM) (own : List Nat) : List MemCall → Prop
  | [] => True
  | c :: cs => c.legal w ∧ c.inOwn own ∧ (w.step grow c).1.careful grow (c.own w own) cs

instance (own : List Nat) (c : MemCall) : Decidable (c.inOwn own) := by
  cases c <;> unfold MemCall.inOwn <;> infer_instance

instance carefulDec (grow : Nat → Nat) : ∀ (calls : List MemCall) (w : WorldM) (own : List Nat), Decidable (w.careful grow own calls)
  | [], _, _ => isTrue trivial
  | c :: cs, w, own => @instDecidableAnd _ _ _ (@instDecidableAnd _ _ _ (carefulDec grow cs _ _))

theorem careful_fine : ∀ (calls : List MemCall) (w : WorldM) (own : List Nat), w.ok →
    (∀ a ∈ own, a < w.mem.bytes.length ∧ ¬ w.uses a) → w.careful grow own calls → w.fine grow calls
  | [], _, _, _, _, _ => trivial
  | c :: cs, w, own, hw, ho, hc => by
    obtain ⟨h1, h2, h3⟩ := hc
    have hok : c.ok w := by
      cases c with
      | write s i x => exact ⟨h1.1, h1.2, (ho _ h2).2⟩
      | _ => exact h1
    refine ⟨hok, careful_fine cs _ _ (step_rel hw c hok).1 ?_ h3⟩
    have hlen := step_length (grow := grow) hw c hok
    have keep : ∀ a ∈ own, (∀ s, c.given = some s → a ≠ s.blk) → a < (w.step grow c).1.mem.bytes.length ∧ ¬ (w.step grow c).1.uses a := by
      intro a ha hg
      obtain ⟨o1, o2⟩ := ho a ha
      refine ⟨by omega, fun hu => ?_⟩
      rcases step_uses hw c hok hu with h | ⟨s, hs, h⟩ | h
      · exact o2 h
      · exact hg s hs h.1.symm
      · omega
    intro a ha
    cases hb : c.given with
    | some s =>
      have : a ∈ own.filter (· != s.blk) := by
        cases c <;> first | (simp only [MemCall.own, hb] at ha; exact ha) | cases hb
      obtain ⟨m1, m2⟩ := List.mem_filter.1 this
      refine keep a m1 fun t ht => ?_
      rw [hb] at ht
      cases ht
      simpa using m2
    | none =>
      have hk : a ∈ own → a < (w.step grow c).1.mem.bytes.length ∧ ¬ (w.step grow c).1.uses a :=
        fun h => keep a h fun t ht => by rw [hb] at ht; cases ht
      cases c with
      | bytes x n =>
        rcases List.mem_cons.1 ha with rfl | ha
        · refine ⟨by simp [WorldM.step, fresh], fun hu => ?_⟩
          have hz : ∀ t : BSlice, t.ok w.mem.bytes → ¬ t.inArray w.mem.bytes.length := by
            intro t ht hin
            obtain ⟨i1, i2⟩ := hin
            obtain ⟨k1, k2⟩ := ht
            rw [i1, show w.mem.bytes.block w.mem.bytes.length = [] by simp [BHeap.block]] at k2
            simp only [List.length_nil] at k2
            omega
          rcases hu with ⟨p, hp, h⟩ | ⟨r, hr, h | ⟨s, hs, h⟩⟩
          · exact hz _ (hw.parsers p hp) h
          · exact hz _ (hw.mem r hr).2 h
          · have := (hw.mem r hr).1
            rw [hs] at this
            exact hz _ this h
        · exact hk ha
      | _ => first | (cases hb; done) | exact hk ha

/-- **C115** A program that writes only to arrays which it made itself and has not given to a parser gets at each call the
bytes and the error that parsers give that own their bytes.  So what a parser keeps is at most what it was given, and what
it made itself: no copy of a slice that the program made for itself is ever at risk. -/
theorem C115_careful (grow : Nat → Nat) (calls : List MemCall) (hc : WorldM.start.careful grow [] calls) :
    WorldM.start.run grow calls = valRun [] (WorldM.start.seen grow calls) :=
  C112_sessions grow calls (careful_fine calls _ [] start_ok (fun _ h => by cases h) hc)

/-- **C115** The arrays that parsers use after any fine program are those used before, those of slices given by its calls,
and new ones. -/
theorem C115_uses (grow : Nat → Nat) : ∀ (calls : List MemCall) (w : WorldM), w.ok → w.fine grow calls → ∀ (a : Nat), (w.after grow calls).uses a →
    w.uses a ∨ (∃ c ∈ calls, ∃ s, c.given = some s ∧ s.inArray a) ∨ w.mem.bytes.length ≤ a
  | [], _, _, _, _, ha => .inl ha
  | c :: cs, w, hw, hf, a, ha => by
    rcases C115_uses grow cs _ (step_rel hw c hf.1).1 hf.2 a ha with h | ⟨d, hd, h⟩ | h
    · rcases step_uses hw c hf.1 h with h | h | h
      · exact .inl h
      · exact .inr (.inl ⟨c, by simp, h⟩)
      · exact .inr (.inr h)
    · exact .inr (.inl ⟨d, by simp [hd], h⟩)
    · exact .inr (.inr (Nat.le_trans (step_length hw c hf.1) h))

section Examples

/-- A program that keeps a second buffer and refills it: fill, parse a fresh copy, refill, set from another copy. -/
def memCareful : List MemCall :=
  [.bytes "{\"a\":1}".toUTF8.toList 0, .bytes "{\"a\":1}".toUTF8.toList 2, .parse ⟨1, 0, 7, 9⟩, .write ⟨0, 0, 7, 7⟩ 2 [98],
   .get 0 [[97]], .bytes "[5]".toUTF8.toList 0, .set 0 ⟨2, 1, 1, 2⟩ [[97]], .write ⟨0, 0, 7, 7⟩ 0 [91], .get 0 [[97]], .getNew 0 []]

/-- The hypothesis of `C115_careful` holds of it, -/
example : WorldM.start.careful (fun n => n) [] memCareful := by decide +kernel

/-- and these are the answers. -/
example : WorldM.start.run (fun n => n) memCareful = [.parsed none, .read (.ok [49]), .did "{\"a\":5}".toUTF8.toList none, .read (.ok [53]),
    .read (.ok "{\"a\":5}".toUTF8.toList)] := by decide +kernel

/-- Writing to the array of the value given to `Set` is not careful. -/
example : ¬ WorldM.start.careful (fun n => n) [] (memCareful ++ [.write ⟨2, 0, 3, 3⟩ 1 [54]]) := by decide +kernel

end Examples

end Jin
