import Verif.Model.ParserMem
import Verif.Proof.IterMem
import Verif.Props.ByteMem
/-!
# Proof.ParserMem — parsers whose bytes are slices in memory, beside those whose bytes are values
-/

namespace Jin
variable {b k : BHeap} {h : MHeap} {grow : Nat → Nat}

/-! ### Nodes with slices that lie in their arrays -/

def Label.ok (b : BHeap) : Label → Prop
  | .str _ => True
  | .part s => s.ok b

def NodeM.ok (b : BHeap) (r : NodeM) : Prop := r.label.ok b ∧ r.value.ok b

/-- All slices of the nodes lie in their arrays. -/
def MHeap.ok (b : BHeap) (h : MHeap) : Prop := ∀ r ∈ h, r.ok b

theorem Label.ok.more {l : Label} (hl : l.ok b) : l.ok (b ++ k) := by
  cases l with
  | str _ => trivial
  | part s => exact ok_append (show s.ok b from hl)

theorem Label.see_more {l : Label} (hl : l.ok b) : l.see (b ++ k) = l.see b := by
  cases l with
  | str _ => rfl
  | part s => exact read_append (show s.ok b from hl)

theorem NodeM.ok.more {r : NodeM} (hr : r.ok b) : r.ok (b ++ k) := ⟨hr.1.more, ok_append hr.2⟩

theorem NodeM.see_more {r : NodeM} (hr : r.ok b) : r.see (b ++ k) = r.see b := by
  unfold NodeM.see
  rw [Label.see_more hr.1, read_append hr.2]

theorem MHeap.ok.more (hh : h.ok b) : h.ok (b ++ k) := fun r hr => (hh r hr).more

theorem MHeap.see_more (hh : h.ok b) : h.see (b ++ k) = h.see b := List.map_congr_left fun r hr => NodeM.see_more (hh r hr)

theorem see_get (i : Nat) : (h.see b)[i]? = h[i]?.map (NodeM.see b) := List.getElem?_map ..

theorem MHeap.ok.get (hh : h.ok b) {i : Nat} {r : NodeM} (hr : h[i]? = some r) : r.ok b := hh r (List.mem_of_getElem? hr)

theorem see_up (i : Nat) : (h.see b)[i]?.bind NodeRec.up = h[i]?.bind NodeM.up := by
  rw [see_get]
  cases h[i]? <;> rfl

theorem see_modify {f : NodeM → NodeM} {g : NodeRec → NodeRec} (hf : ∀ r, (f r).see b = g (r.see b)) (p : Nat) :
    MHeap.see b (h.modify p f) = (h.see b).modify p g := by
  unfold MHeap.see
  apply List.ext_getElem?
  intro i
  rw [List.getElem?_map, List.getElem?_modify, List.getElem?_modify, List.getElem?_map]
  cases h[i]? with
  | none => rfl
  | some r =>
    show some (NodeM.see b (if p = i then f r else r)) = some (if p = i then g (NodeM.see b r) else NodeM.see b r)
    split
    · rw [hf]
    · rfl

theorem ok_modify {f : NodeM → NodeM} (hh : h.ok b) (hf : ∀ r, r.ok b → (f r).ok b) (p : Nat) : MHeap.ok b (h.modify p f) := by
  intro r hr
  obtain ⟨i, hi⟩ := List.mem_iff_getElem?.1 hr
  rw [List.getElem?_modify] at hi
  cases ho : h[i]? with
  | none => rw [ho] at hi; cases hi
  | some x =>
    rw [ho] at hi
    have hx := hh.get ho
    split at hi
    · cases hi; exact hf _ hx
    · cases hi; exact hx

theorem see_setValue {p : Nat} {v : BSlice} : (h.setValue p v).see b = (h.see b).setValue p (b.read v) := see_modify (fun _ => rfl) p
theorem see_setLabel {p : Nat} {l : Label} : (h.setLabel p l).see b = (h.see b).setLabel p (l.see b) := see_modify (fun _ => rfl) p
theorem see_setUp {p : Nat} {u : Option Nat} : (h.setUp p u).see b = (h.see b).setUp p u := see_modify (fun _ => rfl) p
theorem see_setDown {p : Nat} {d : List Nat} : (h.setDown p d).see b = (h.see b).setDown p d := see_modify (fun _ => rfl) p
theorem see_addDown {p q : Nat} : (h.addDown p q).see b = (h.see b).addDown p q := see_modify (fun _ => rfl) p

theorem MHeap.ok.setValue (hh : h.ok b) {p : Nat} {v : BSlice} (hv : v.ok b) : (h.setValue p v).ok b := ok_modify (f := fun r => { r with value := v }) hh (fun _ hr => ⟨hr.1, hv⟩) p
theorem MHeap.ok.setLabel (hh : h.ok b) {p : Nat} {l : Label} (hl : l.ok b) : (h.setLabel p l).ok b := ok_modify (f := fun r => { r with label := l }) hh (fun _ hr => ⟨hl, hr.2⟩) p
theorem MHeap.ok.setUp (hh : h.ok b) {p : Nat} {u : Option Nat} : (h.setUp p u).ok b := ok_modify (f := fun r => { r with up := u }) hh (fun _ hr => hr) p
theorem MHeap.ok.setDown (hh : h.ok b) {p : Nat} {d : List Nat} : (h.setDown p d).ok b := ok_modify (f := fun r => { r with down := d }) hh (fun _ hr => hr) p
theorem MHeap.ok.addDown (hh : h.ok b) {p q : Nat} : (h.addDown p q).ok b := ok_modify (f := fun r => { r with down := r.down ++ [q] }) hh (fun _ hr => hr) p

theorem see_append {r : NodeM} : MHeap.see b (h ++ [r]) = h.see b ++ [r.see b] := List.map_append ..

theorem MHeap.ok.append (hh : h.ok b) {r : NodeM} (hr : r.ok b) : MHeap.ok b (h ++ [r]) := by
  intro x hx
  rcases List.mem_append.1 hx with hx | hx
  · exact hh x hx
  · rw [List.mem_singleton.1 hx]; exact hr

theorem see_length : (h.see b).length = h.length := List.length_map ..

/-- `createNode` -/
theorem create_see : createNode (h.see b) none = ((createNodeM h none).1.see b, (createNodeM h none).2) := by
  unfold createNode createNodeM NHeap.new MHeap.new
  simp only [see_append, see_length, NodeM.see, Label.see, nil_read]

theorem create_ok (hh : h.ok b) : (createNodeM h none).1.ok b := hh.append ⟨trivial, nil_ok⟩

/-! ### `pCore` -/

def PcM.see (b : BHeap) (s : PcM) : PcP :=
  ⟨s.heap.see b, s.core, s.braces, s.idxs, s.inQuote, s.start, s.stop, b.read s.key, s.valStart, s.last⟩

structure PcM.ok (b : BHeap) (json : BSlice) (s : PcM) : Prop where
  heap : s.heap.ok b
  key : s.key.ok b
  stop : s.stop ≤ json.len

def OptRel {α β : Type} (S : α → β → Prop) : Option α → Option β → Prop
  | some a, some c => S a c
  | none, none => True
  | _, _ => False

theorem child_rel {s : PcM} {l : Label} {v : BSlice} (hs : s.heap.ok b) (hl : l.ok b) (hv : v.ok b) :
    OptRel (fun x y => x.1.ok b ∧ y = (x.1.see b, x.2)) (s.child l v) ((s.see b).child (l.see b) (b.read v)) := by
  unfold PcM.child PcP.child
  show OptRel _ (match s.core with | none => none | some c => _) (match s.core with | none => none | some c => _)
  cases s.core with
  | none => trivial
  | some c =>
    refine ⟨?_, ?_⟩
    · exact MHeap.ok.addDown (hs.append ⟨hl, hv⟩)
    · simp only [see_addDown, see_append, PcM.see, see_length, NodeM.see]

theorem label_rel {s : PcM} (hk : s.key.ok b) : OptRel (fun l x => l.ok b ∧ x = l.see b) s.label (s.see b).label := by
  unfold PcM.label PcP.label
  show OptRel _ (if (s.last == 58) = true then _ else _) (if (s.last == 58) = true then _ else _)
  split
  · exact ⟨hk, rfl⟩
  · show OptRel _ (Option.map _ (s.idxs.head? >>= _)) (Option.map _ (s.idxs.head? >>= _))
    cases s.idxs.head? with
    | none => trivial
    | some n => exact ⟨trivial, rfl⟩

theorem leaf_rel {json : BSlice} {s : PcM} {i : Nat} (hj : json.ok b) (hs : s.ok b json) (hi : i ≤ json.len) :
    OptRel (fun x y => x.ok b ∧ y = x.see b) (s.leaf json i) ((s.see b).leaf (b.read json) i) := by
  unfold PcM.leaf PcP.leaf
  have h1 := sub_rel (h := b) (json := json) (lo := s.valStart) (hi := i) hj (by omega)
  have h2 := label_rel hs.key
  show OptRel _ _ (match slice (b.read json) (s.valStart : Int) i, (s.see b).label with | .ok v, some l => _ | _, _ => none)
  cases hv : slice (b.read json) (s.valStart : Int) i with
  | ok v =>
    rw [hv] at h1
    cases hw : json.sub s.valStart i with
    | none => rw [hw] at h1; exact h1.elim
    | some w =>
      rw [hw] at h1
      obtain ⟨hw1, rfl⟩ := h1
      cases hl : s.label with
      | none =>
        rw [hl] at h2
        cases hl' : (s.see b).label with
        | none => trivial
        | some _ => rw [hl'] at h2; exact h2.elim
      | some l =>
        rw [hl] at h2
        cases hl' : (s.see b).label with
        | none => rw [hl'] at h2; exact h2.elim
        | some l' =>
          rw [hl'] at h2
          obtain ⟨hl1, rfl⟩ := h2
          have h3 := child_rel hs.heap hl1 (hw1.ok hj)
          simp only
          cases hc : s.child l w <;> cases hc' : (s.see b).child (l.see b) (b.read w) <;> rw [hc, hc'] at h3 <;>
            first | trivial | exact h3.elim | skip
          obtain ⟨a1, a2⟩ := h3
          exact ⟨a1, by rw [a2]⟩
  | err e =>
    rw [hv] at h1
    cases hw : json.sub s.valStart i with
    | none => trivial
    | some w => rw [hw] at h1; exact h1.elim
  | panic =>
    rw [hv] at h1
    cases hw : json.sub s.valStart i with
    | none => trivial
    | some w => rw [hw] at h1; exact h1.elim

def PcMRel (b : BHeap) (json : BSlice) (s : PcM) (t : PcP) : Prop := s.ok b json ∧ t = s.see b

theorem pcBody_rel {json : BSlice} (hj : json.ok b) (i : Nat) (s : PcM) (hs : s.ok b json) :
    CtlRel (PcMRel b json) (fun _ _ => True) (pcBodyM b json i s) (pcBodyP (b.read json) i (s.see b)) := by
  have hlen := bread_length hj
  unfold pcBodyM pcBodyP
  cases hc : (b.read json)[i]? with
  | none => trivial
  | some curr =>
    have hi : i < json.len := by rw [← hlen]; exact (List.getElem?_eq_some_iff.1 hc).1
    have hl := leaf_rel (i := i) hj hs (by omega)
    have hlab := label_rel hs.key
    simp only
    split
    · exact ⟨hs, rfl⟩
    split
    · show CtlRel _ _ (if s.inQuote = true then _ else _) (if s.inQuote = true then _ else _)
      split
      · cases quoteScan (b.read json) i i
        · exact ⟨⟨hs.heap, hs.key, by show i ≤ json.len; omega⟩, rfl⟩
        · exact ⟨hs, rfl⟩
        · exact ⟨⟨hs.heap, hs.key, hs.stop⟩, rfl⟩
      · exact ⟨⟨hs.heap, hs.key, hs.stop⟩, rfl⟩
    show CtlRel _ _ (if s.inQuote = true then _ else _) (if s.inQuote = true then _ else _)
    split
    · exact ⟨hs, rfl⟩
    split
    · cases h1 : s.label <;> cases h2 : (s.see b).label <;> rw [h1, h2] at hlab <;> first | trivial | exact hlab.elim | skip
      rename_i l _
      obtain ⟨a1, rfl⟩ := hlab
      have hch := child_rel (v := .nil) hs.heap a1 nil_ok
      rw [nil_read] at hch
      simp only
      cases h3 : s.child l .nil <;> cases h4 : (s.see b).child (l.see b) [] <;> rw [h3, h4] at hch <;> first | trivial | exact hch.elim | skip
      obtain ⟨c1, rfl⟩ := hch
      exact ⟨⟨c1, hs.key, hs.stop⟩, rfl⟩
    split
    · have hch : OptRel (fun x y => x.1.ok b ∧ y = (x.1.see b, x.2))
          (if (s.last == 58) = true then (s.leaf json i).map fun h => (h, s.valStart)
            else if (s.last == 44) = true then (s.leaf json i).map fun h => (h, i + 1)
            else some (s.heap, s.valStart))
          (if ((s.see b).last == 58) = true then ((s.see b).leaf (b.read json) i).map fun h => (h, (s.see b).valStart)
            else if ((s.see b).last == 44) = true then ((s.see b).leaf (b.read json) i).map fun h => (h, i + 1)
            else some ((s.see b).heap, (s.see b).valStart)) := by
        show OptRel _ _ (if (s.last == 58) = true then _ else if (s.last == 44) = true then _ else _)
        cases h1 : s.leaf json i <;> cases h2 : (s.see b).leaf (b.read json) i <;> rw [h1, h2] at hl <;> first | exact hl.elim | skip
        · split
          · trivial
          split
          · trivial
          · exact ⟨hs.heap, rfl⟩
        · obtain ⟨l1, rfl⟩ := hl
          split
          · exact ⟨l1, rfl⟩
          split
          · exact ⟨l1, rfl⟩
          · exact ⟨hs.heap, rfl⟩
      revert hch
      generalize (if (s.last == 58) = true then (s.leaf json i).map fun h => (h, s.valStart)
            else if (s.last == 44) = true then (s.leaf json i).map fun h => (h, i + 1)
            else some (s.heap, s.valStart)) = X
      generalize (if ((s.see b).last == 58) = true then ((s.see b).leaf (b.read json) i).map fun h => (h, (s.see b).valStart)
            else if ((s.see b).last == 44) = true then ((s.see b).leaf (b.read json) i).map fun h => (h, i + 1)
            else some ((s.see b).heap, (s.see b).valStart)) = Y
      intro hch
      cases X <;> cases Y <;> first | trivial | exact hch.elim | skip
      rename_i x y
      obtain ⟨h', vs⟩ := x
      obtain ⟨x1, rfl⟩ := hch
      simp only
      rw [show (s.see b).core = s.core from rfl, show (s.see b).braces = s.braces from rfl, show (s.see b).idxs = s.idxs from rfl]
      cases s.core with
      | none => trivial
      | some c =>
        cases s.braces with
        | nil => trivial
        | cons bb braces =>
          have h5 := sub_rel (h := b) (json := json) (lo := bb) (hi := (i : Int) + 1) hj (by omega)
          simp only
          cases h6 : slice (b.read json) bb (i + 1) <;> cases h7 : json.sub bb (i + 1) <;> rw [h6, h7] at h5 <;> first | trivial | exact h5.elim | skip
          obtain ⟨w1, rfl⟩ := h5
          cases s.idxs with
          | nil => trivial
          | cons _ idxs =>
            refine ⟨⟨x1.setValue (w1.ok hj), hs.key, hs.stop⟩, ?_⟩
            simp only [PcM.see, ← see_setValue, see_up]
    split
    · have h5 := sub_rel (h := b) (json := json) (lo := s.start) (hi := s.stop) hj (by have := hs.stop; omega)
      rw [show (s.see b).start = s.start from rfl, show (s.see b).stop = s.stop from rfl]
      cases h6 : slice (b.read json) s.start s.stop <;> cases h7 : json.sub s.start s.stop <;> rw [h6, h7] at h5 <;> first | trivial | exact h5.elim | skip
      obtain ⟨w1, rfl⟩ := h5
      exact ⟨⟨hs.heap, w1.ok hj, hs.stop⟩, rfl⟩
    split
    · have hch : OptRel (fun x y => x.ok b ∧ y = x.see b)
          (if (s.last == 58) = true then s.leaf json i
            else if (s.last == 44 || s.last == 91) = true then s.leaf json i
            else some s.heap)
          (if ((s.see b).last == 58) = true then (s.see b).leaf (b.read json) i
            else if ((s.see b).last == 44 || (s.see b).last == 91) = true then (s.see b).leaf (b.read json) i
            else some (s.see b).heap) := by
        show OptRel _ _ (if (s.last == 58) = true then _ else if (s.last == 44 || s.last == 91) = true then _ else _)
        split
        · exact hl
        split
        · exact hl
        · exact ⟨hs.heap, rfl⟩
      revert hch
      generalize (if (s.last == 58) = true then s.leaf json i
            else if (s.last == 44 || s.last == 91) = true then s.leaf json i
            else some s.heap) = X
      generalize (if ((s.see b).last == 58) = true then (s.see b).leaf (b.read json) i
            else if ((s.see b).last == 44 || (s.see b).last == 91) = true then (s.see b).leaf (b.read json) i
            else some (s.see b).heap) = Y
      intro hch
      cases X <;> cases Y <;> first | trivial | exact hch.elim | skip
      obtain ⟨x1, rfl⟩ := hch
      rw [show (s.see b).idxs = s.idxs from rfl]
      cases s.idxs with
      | nil => trivial
      | cons n idxs => exact ⟨⟨x1, hs.key, hs.stop⟩, rfl⟩
    · exact ⟨hs, rfl⟩

theorem pCoreM_rel {json : BSlice} (hj : json.ok b) (hh : h.ok b) (core : Nat) :
    OptRel (fun x y => x.ok b ∧ y = x.see b) (pCoreM b json core h) (pCoreP (b.read json) core (h.see b)) := by
  have hlen := bread_length hj
  unfold pCoreM pCoreP
  rw [hlen]
  split
  · exact ⟨hh, rfl⟩
  · cases skipSpaces (b.read json) 0 with
    | none => trivial
    | some start =>
      simp only
      have := forUp_sim (hi := json.len) (b1 := pcBodyM b json) (b2 := pcBodyP (b.read json)) (S := PcMRel b json) (R := fun _ _ => True)
        (fun i s t hst => by obtain ⟨h1, rfl⟩ := hst; exact pcBody_rel hj i s h1) (i := start)
        (s := ⟨h, some core, [], [0], false, start, 0, .nil, 0, 0⟩)
        (t := ⟨h.see b, some core, [], [0], false, start, 0, [], 0, 0⟩)
        ⟨⟨hh, nil_ok, Nat.zero_le _⟩, by simp only [PcM.see, nil_read]⟩
      revert this
      cases forUp json.len (pcBodyM b json) start ⟨h, some core, [], [0], false, start, 0, .nil, 0, 0⟩ <;>
        cases forUp json.len (pcBodyP (b.read json)) start ⟨h.see b, some core, [], [0], false, start, 0, [], 0, 0⟩ <;>
        intro this <;> first | trivial | exact this.elim | skip
      obtain ⟨a1, rfl⟩ := this
      exact ⟨a1.heap, rfl⟩

end Jin
