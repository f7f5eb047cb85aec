import Verif.Proof.PtrTree
import Verif.Proof.Mem
/-!
# Proof.PtrParse — `pCore` on pointers builds the tree that `pCore` on trees builds
-/

namespace Jin

/-- `t.down = append(t.down, d)`. -/
def PTree.addKid (t d : PTree) : PTree := .mk t.ptr t.label t.value (t.down ++ [d])

/-- `t.value = x`. -/
def PTree.withValue (t : PTree) (x : Bytes) : PTree := .mk t.ptr t.label x t.down

/-- The pointer `core.up`, for the ancestors `ups` of `core`. -/
def upOf (up0 : Option Nat) : List PTree → Option Nat
  | [] => up0
  | u :: _ => some u.ptr

/-- The ancestors of an open node are in memory: each has its closed children and, last, the open one. -/
def Open (h : NHeap) (up0 : Option Nat) : List PTree → Nat → Prop
  | [], _ => True
  | u :: ups, q =>
    (h[u.ptr]? = some ⟨u.label, u.value, upOf up0 ups, u.down.map PTree.ptr ++ [q]⟩ ∧ ∀ d ∈ u.down, Here h (some u.ptr) d) ∧
      Open h up0 ups u.ptr

/-- The whole tree, closing what is open. -/
def foldP (cur : PTree) : List PTree → PTree
  | [] => cur
  | u :: ups => foldP (u.addKid cur) ups

/-- The addresses. -/
def zptrs (cur : PTree) (ups : List PTree) : List Nat := cur.ptrs ++ ptrsL ups

variable {h h' : NHeap} {up0 up : Option Nat} {cur d u : PTree} {ups : List PTree} {q : Nat}

theorem addKid_ptrs : (u.addKid d).ptrs = u.ptrs ++ d.ptrs := by
  obtain ⟨p, l, v, ds⟩ := u
  simp [PTree.addKid, PTree.ptrs, PTree.ptr, PTree.down, ptrsL_append, ptrsL]

theorem withValue_ptrs {x : Bytes} : (u.withValue x).ptrs = u.ptrs := by
  obtain ⟨p, l, v, ds⟩ := u; rfl

theorem addKid_erase : (u.addKid d).erase = u.erase.addChild d.erase := by
  obtain ⟨p, l, v, ds⟩ := u
  simp [PTree.addKid, PTree.erase, PTree.ptr, PTree.label, PTree.value, PTree.down, eraseL_map, Node.addChild, Node.setDown, Node.down]

theorem withValue_erase {x : Bytes} : (u.withValue x).erase = u.erase.setValue x := by
  obtain ⟨p, l, v, ds⟩ := u; rfl

theorem Open.frame (ho : Open h up0 ups q) (hf : ∀ x ∈ ptrsL ups, h'[x]? = h[x]?) : Open h' up0 ups q := by
  induction ups generalizing q with
  | nil => trivial
  | cons u ups ih =>
    obtain ⟨⟨h1, h2⟩, h3⟩ := ho
    have hu : ∀ x ∈ u.ptrs, h'[x]? = h[x]? := fun x hx => hf x (by rw [ptrsL]; exact List.mem_append_left _ hx)
    refine ⟨⟨by rw [hu _ (ptr_mem u)]; exact h1, fun d hd => (h2 d hd).frame fun x hx => hu x ?_⟩, ih h3 fun x hx => hf x ?_⟩
    · rw [u.eta, PTree.ptrs, List.mem_cons]; exact .inr (mem_ptrsL.2 ⟨d, hd, hx⟩)
    · rw [ptrsL]; exact List.mem_append_right _ hx

theorem Open.lt (ho : Open h up0 ups q) : ∀ x ∈ ptrsL ups, x < h.length := by
  induction ups generalizing q with
  | nil => intro x hx; cases hx
  | cons u ups ih =>
    intro x hx
    rw [ptrsL, List.mem_append] at hx
    rcases hx with hx | hx
    · rw [u.eta, PTree.ptrs, List.mem_cons] at hx
      rcases hx with rfl | hx
      · exact (List.getElem?_eq_some_iff.1 ho.1.1).1
      · obtain ⟨d, hd, hx⟩ := mem_ptrsL.1 hx
        exact (ho.1.2 d hd).lt x hx
    · exact ih ho.2 x hx

/-- A node appended to memory and to the children of `cur`. -/
theorem add_cell (r : NodeRec) {x : Nat} (hc : q ≠ x) (hx : x < h.length) : (NHeap.addDown (h ++ [r]) q h.length)[x]? = h[x]? := by
  unfold NHeap.addDown
  rw [List.getElem?_modify_ne _ _ hc]
  exact List.getElem?_append_left hx

theorem add_new (r : NodeRec) (hc : q < h.length) : (NHeap.addDown (h ++ [r]) q h.length)[h.length]? = some r := by
  unfold NHeap.addDown
  rw [List.getElem?_modify_ne _ _ (by omega)]
  simp

theorem add_at (r : NodeRec) {c : NodeRec} (hc : h[q]? = some c) :
    (NHeap.addDown (h ++ [r]) q h.length)[q]? = some { c with down := c.down ++ [h.length] } := by
  unfold NHeap.addDown
  rw [List.getElem?_modify_eq, List.getElem?_append_left (List.getElem?_eq_some_iff.1 hc).1, hc]
  rfl

theorem cur_split : cur.ptrs = cur.ptr :: ptrsL cur.down := by cases cur; rfl

/-- A leaf below `cur`. -/
theorem leaf_here (l v : Bytes) (hh : Here h up cur) (hn : cur.ptrs.Nodup) :
    Here (NHeap.addDown (h ++ [⟨l, v, some cur.ptr, []⟩]) cur.ptr h.length) up (cur.addKid (.mk h.length l v [])) := by
  have hlt := hh.lt
  have hc := hh.cell
  rw [here_iff]
  refine ⟨?_, fun d hd => ?_⟩
  · rw [show (cur.addKid (.mk h.length l v [])).ptr = cur.ptr from rfl, add_at _ hc]
    simp [PTree.addKid, PTree.label, PTree.value, PTree.down, PTree.ptr]
  · rcases List.mem_append.1 (show d ∈ cur.down ++ [PTree.mk h.length l v []] from hd) with hd | hd
    · refine (hh.kids d hd).frame fun x hx => add_cell _ ?_ ((hh.kids d hd).lt x hx)
      rintro rfl
      rw [cur_split, List.nodup_cons] at hn
      exact hn.1 (mem_ptrsL.2 ⟨d, hd, hx⟩)
    · rw [List.mem_singleton.1 hd]
      refine ⟨?_, trivial⟩
      rw [add_new _ (hlt _ (ptr_mem _))]
      rfl

/-- The loop of `pCore` on pointers and on trees. -/
structure PcRel (h0 : NHeap) (c0 : Nat) (up0 : Option Nat) (a : PcP) (b : PcSt) (cur : PTree) (ups : List PTree) : Prop where
  core : a.core = some cur.ptr
  here : Here a.heap (upOf up0 ups) cur
  opens : Open a.heap up0 ups cur.ptr
  nodup : (zptrs cur ups).Nodup
  curE : cur.erase = b.cur
  upsE : ups.map PTree.erase = b.ups
  fresh : ∀ x ∈ zptrs cur ups, x = c0 ∨ h0.length ≤ x
  frame : ∀ x, x < h0.length → x ≠ c0 → a.heap[x]? = h0[x]?
  root : (foldP cur ups).ptr = c0
  braces : a.braces = b.braces ∧ a.braces.length = ups.length
  idxs : a.idxs = b.idxs ∧ a.idxs.length = ups.length + 1
  rest : a.inQuote = b.inQuote ∧ a.start = b.start ∧ a.stop = b.stop ∧ a.key = b.key ∧ a.valStart = b.valStart ∧ a.last = b.last
  grow : h0.length ≤ a.heap.length

theorem foldP_ptr : ∀ {ups : List PTree} {cur cur' : PTree}, cur'.ptr = cur.ptr → (foldP cur' ups).ptr = (foldP cur ups).ptr
  | [], _, _, h => h
  | _ :: ups, _, _, _ => foldP_ptr (ups := ups) rfl

section
variable {h0 : NHeap} {c0 : Nat} {a : PcP} {b : PcSt}

theorem PcRel.lt (hr : PcRel h0 c0 up0 a b cur ups) : ∀ x ∈ zptrs cur ups, x < a.heap.length := fun x hx =>
  (List.mem_append.1 hx).elim (hr.here.lt x) (hr.opens.lt x)

theorem PcRel.apart (hr : PcRel h0 c0 up0 a b cur ups) {x : Nat} (hx : x ∈ cur.ptrs) : x ∉ ptrsL ups := fun hx' =>
  (List.nodup_append.1 hr.nodup).2.2 x hx x hx' rfl

/-- New leaf. -/
theorem PcRel.leaf (hr : PcRel h0 c0 up0 a b cur ups) (l v : Bytes) {braces idxs : List Nat} {valStart : Nat} {last : UInt8}
    (hb : braces.length = ups.length) (hi : idxs.length = ups.length + 1) :
    PcRel h0 c0 up0
      ⟨NHeap.addDown (a.heap ++ [⟨l, v, some cur.ptr, []⟩]) cur.ptr a.heap.length, a.core, braces, idxs, a.inQuote, a.start, a.stop, a.key, valStart, last⟩
      ⟨b.cur.addChild (.mk l v []), b.ups, braces, idxs, b.inQuote, b.start, b.stop, b.key, valStart, last⟩
      (cur.addKid (.mk a.heap.length l v [])) ups := by
  have hlt := hr.lt
  obtain ⟨r1, r2, r3, r4, -, -⟩ := hr.rest
  have hcz : cur.ptr ∈ zptrs cur ups := List.mem_append_left _ (ptr_mem cur)
  refine ⟨hr.core, leaf_here l v hr.here (List.nodup_append.1 hr.nodup).1, ?_, ?_, ?_, hr.upsE, ?_, ?_, ?_, ⟨rfl, hb⟩, ⟨rfl, hi⟩,
    ⟨r1, r2, r3, r4, rfl, rfl⟩, ?_⟩
  · refine hr.opens.frame fun x hx => add_cell _ ?_ (hr.opens.lt x hx)
    rintro rfl
    exact hr.apart (ptr_mem cur) hx
  · have : (zptrs (cur.addKid (.mk a.heap.length l v [])) ups).Perm (a.heap.length :: zptrs cur ups) := by
      unfold zptrs
      rw [addKid_ptrs, List.append_assoc]
      simp [PTree.ptrs, ptrsL]
    rw [this.nodup_iff, List.nodup_cons]
    exact ⟨fun hx => by have := hlt _ hx; omega, hr.nodup⟩
  · rw [addKid_erase, hr.curE]; rfl
  · intro x hx
    unfold zptrs at hx
    rw [addKid_ptrs, List.append_assoc, List.mem_append, List.mem_append] at hx
    rcases hx with hx | hx | hx
    · exact hr.fresh x (List.mem_append_left _ hx)
    · simp only [PTree.ptrs, ptrsL, List.mem_singleton] at hx
      exact .inr (by rw [hx]; exact hr.grow)
    · exact hr.fresh x (List.mem_append_right _ hx)
  · intro x hx hne
    rw [add_cell _ ?_ (Nat.lt_of_lt_of_le hx hr.grow)]
    · exact hr.frame x hx hne
    · intro e
      have := hr.fresh _ hcz
      omega
  · rw [← hr.root]; exact foldP_ptr rfl
  · have := hr.grow
    simp only [NHeap.addDown, List.length_modify, List.length_append]
    omega

/-- New open node. -/
theorem PcRel.open_ (hr : PcRel h0 c0 up0 a b cur ups) (l : Bytes) {i valStart : Nat} {last : UInt8} :
    PcRel h0 c0 up0
      ⟨NHeap.addDown (a.heap ++ [⟨l, [], some cur.ptr, []⟩]) cur.ptr a.heap.length, some a.heap.length, i :: a.braces, 0 :: a.idxs, a.inQuote, a.start,
        a.stop, a.key, valStart, last⟩
      ⟨.mk l [] [], b.cur :: b.ups, i :: b.braces, 0 :: b.idxs, b.inQuote, b.start, b.stop, b.key, valStart, last⟩
      (.mk a.heap.length l [] []) (cur :: ups) := by
  have hlt := hr.lt
  obtain ⟨r1, r2, r3, r4, -, -⟩ := hr.rest
  have hcz : cur.ptr ∈ zptrs cur ups := List.mem_append_left _ (ptr_mem cur)
  have hlc := hlt _ hcz
  have hz : zptrs (.mk a.heap.length l [] []) (cur :: ups) = a.heap.length :: zptrs cur ups := rfl
  refine ⟨rfl, ⟨by rw [add_new _ hlc]; rfl, trivial⟩, ⟨⟨?_, fun d hd => ?_⟩, ?_⟩, ?_, rfl, by rw [List.map_cons, hr.curE, hr.upsE], ?_, ?_, ?_,
    ⟨congrArg _ hr.braces.1, by simp [hr.braces.2]⟩, ⟨congrArg _ hr.idxs.1, by simp [hr.idxs.2]⟩, ⟨r1, r2, r3, r4, rfl, rfl⟩, ?_⟩
  · rw [add_at _ hr.here.cell]; rfl
  · refine (hr.here.kids d hd).frame fun x hx => add_cell _ ?_ ((hr.here.kids d hd).lt x hx)
    rintro rfl
    have := (List.nodup_append.1 hr.nodup).1
    rw [cur_split, List.nodup_cons] at this
    exact this.1 (mem_ptrsL.2 ⟨d, hd, hx⟩)
  · refine hr.opens.frame fun x hx => add_cell _ ?_ (hr.opens.lt x hx)
    rintro rfl
    exact hr.apart (ptr_mem cur) hx
  · rw [hz, List.nodup_cons]
    exact ⟨fun hx => by have := hlt _ hx; omega, hr.nodup⟩
  · rw [hz]
    intro x hx
    rcases List.mem_cons.1 hx with rfl | hx
    · exact .inr hr.grow
    · exact hr.fresh x hx
  · intro x hx hne
    rw [add_cell _ ?_ (Nat.lt_of_lt_of_le hx hr.grow)]
    · exact hr.frame x hx hne
    · intro e
      have := hr.fresh _ hcz
      omega
  · rw [← hr.root, foldP]; exact foldP_ptr rfl
  · have := hr.grow
    simp only [NHeap.addDown, List.length_modify, List.length_append]
    omega

theorem setValue_ne {x : Nat} {v : Bytes} (hq : q ≠ x) : (h.setValue q v)[x]? = h[x]? := by
  unfold NHeap.setValue
  rw [List.getElem?_modify_ne _ _ hq]

theorem setValue_at {v : Bytes} {c : NodeRec} (hc : h[q]? = some c) : (h.setValue q v)[q]? = some { c with value := v } := by
  unfold NHeap.setValue
  rw [List.getElem?_modify_eq, hc]
  rfl

theorem setValue_here {v : Bytes} (hh : Here h up cur) (hn : cur.ptrs.Nodup) : Here (h.setValue cur.ptr v) up (cur.withValue v) := by
  rw [here_iff]
  refine ⟨setValue_at hh.cell, fun d hd => (hh.kids d hd).frame fun x hx => setValue_ne ?_⟩
  rintro rfl
  rw [cur_split, List.nodup_cons] at hn
  exact hn.1 (mem_ptrsL.2 ⟨d, hd, hx⟩)

/-- A node is closed. -/
theorem PcRel.close (hr : PcRel h0 c0 up0 a b cur (u :: ups)) (v : Bytes) {braces idxs : List Nat} {valStart : Nat} {last : UInt8}
    (hb : braces.length = ups.length) (hi : idxs.length = ups.length + 1) :
    PcRel h0 c0 up0
      ⟨a.heap.setValue cur.ptr v, (a.heap.setValue cur.ptr v)[cur.ptr]?.bind NodeRec.up, braces, idxs, a.inQuote, a.start, a.stop, a.key, valStart, last⟩
      ⟨u.erase.addChild (b.cur.setValue v), ups.map PTree.erase, braces, idxs, b.inQuote, b.start, b.stop, b.key, valStart, last⟩
      (u.addKid (cur.withValue v)) ups := by
  obtain ⟨r1, r2, r3, r4, -, -⟩ := hr.rest
  have hcz : cur.ptr ∈ zptrs cur (u :: ups) := List.mem_append_left _ (ptr_mem cur)
  have hn := List.nodup_append.1 hr.nodup
  have hap := fun {x} => hr.apart (x := x)
  have hu : ∀ x ∈ u.ptrs, cur.ptr ≠ x := fun x hx e => hap (ptr_mem cur) (by rw [ptrsL, e]; exact List.mem_append_left _ hx)
  have hus : ∀ x ∈ ptrsL ups, cur.ptr ≠ x := fun x hx e => hap (ptr_mem cur) (by rw [ptrsL, e]; exact List.mem_append_right _ hx)
  obtain ⟨⟨o1, o2⟩, o3⟩ := hr.opens
  have hz : (zptrs (u.addKid (cur.withValue v)) ups).Perm (zptrs cur (u :: ups)) := by
    unfold zptrs
    rw [addKid_ptrs, withValue_ptrs, ptrsL, ← List.append_assoc]
    exact List.perm_append_comm.append_right _
  refine ⟨?_, ?_, o3.frame fun x hx => setValue_ne (hus x hx), ?_, ?_, rfl, ?_, ?_, ?_, ⟨rfl, hb⟩, ⟨rfl, hi⟩, ⟨r1, r2, r3, r4, rfl, rfl⟩, ?_⟩
  · show (a.heap.setValue cur.ptr v)[cur.ptr]?.bind NodeRec.up = _
    rw [setValue_at hr.here.cell]; rfl
  · rw [here_iff]
    refine ⟨?_, fun d hd => ?_⟩
    · show (a.heap.setValue cur.ptr v)[u.ptr]? = _
      rw [setValue_ne (hu _ (ptr_mem u)), o1]
      simp [PTree.addKid, PTree.label, PTree.value, PTree.down, PTree.ptr, PTree.withValue]
    · rcases List.mem_append.1 (show d ∈ u.down ++ [cur.withValue v] from hd) with hd | hd
      · refine (o2 d hd).frame fun x hx => setValue_ne (hu x ?_)
        rw [cur_split]; exact List.mem_cons_of_mem _ (mem_ptrsL.2 ⟨d, hd, hx⟩)
      · rw [List.mem_singleton.1 hd]
        exact setValue_here hr.here hn.1
  · rw [hz.nodup_iff]; exact hr.nodup
  · rw [addKid_erase, withValue_erase, hr.curE]
  · intro x hx
    exact hr.fresh x (hz.mem_iff.1 hx)
  · intro x hx hne
    show (a.heap.setValue cur.ptr v)[x]? = _
    rw [setValue_ne ?_]
    · exact hr.frame x hx hne
    · intro e
      have := hr.fresh _ hcz
      omega
  · rw [← hr.root, foldP]; exact foldP_ptr rfl
  · have := hr.grow
    simp only [NHeap.setValue, List.length_modify]
    omega

/-- The tree is in memory when the text ends. -/
theorem fold_here (hh : Here h (upOf up0 ups) cur) (ho : Open h up0 ups cur.ptr) : Here h up0 (foldP cur ups) := by
  induction ups generalizing cur with
  | nil => exact hh
  | cons u ups ih =>
    rw [foldP]
    obtain ⟨⟨o1, o2⟩, o3⟩ := ho
    refine ih ?_ o3
    rw [here_iff]
    refine ⟨?_, fun d hd => ?_⟩
    · show h[u.ptr]? = _
      rw [o1]
      simp [PTree.addKid, PTree.label, PTree.value, PTree.down]
    · rcases List.mem_append.1 (show d ∈ u.down ++ [cur] from hd) with hd | hd
      · exact o2 d hd
      · rw [List.mem_singleton.1 hd]; exact hh

theorem fold_ptrs : (foldP cur ups).ptrs.Perm (zptrs cur ups) := by
  induction ups generalizing cur with
  | nil => simp [foldP, zptrs, ptrsL]
  | cons u ups ih =>
    rw [foldP]
    refine ih.trans ?_
    unfold zptrs
    rw [addKid_ptrs, ptrsL, ← List.append_assoc]
    exact List.perm_append_comm.append_right _

theorem fold_erase : (foldP cur ups).erase = foldUps cur.erase (ups.map PTree.erase) := by
  induction ups generalizing cur with
  | nil => rfl
  | cons u ups ih => rw [foldP, ih, addKid_erase]; rfl

/-- Some zipper relates the two states. -/
def PcSim (h0 : NHeap) (c0 : Nat) (up0 : Option Nat) (a : PcP) (b : PcSt) : Prop := ∃ cur ups, PcRel h0 c0 up0 a b cur ups

theorem PcRel.keep (hr : PcRel h0 c0 up0 a b cur ups) {inQuote : Bool} {start stop valStart : Nat} {key : Bytes} {last : UInt8} :
    PcRel h0 c0 up0 ⟨a.heap, a.core, a.braces, a.idxs, inQuote, start, stop, key, valStart, last⟩
      ⟨b.cur, b.ups, b.braces, b.idxs, inQuote, start, stop, key, valStart, last⟩ cur ups :=
  ⟨hr.core, hr.here, hr.opens, hr.nodup, hr.curE, hr.upsE, hr.fresh, hr.frame, hr.root, hr.braces, hr.idxs, ⟨rfl, rfl, rfl, rfl, rfl, rfl⟩, hr.grow⟩

theorem PcRel.moveIdx (hr : PcRel h0 c0 up0 a b cur ups) {idxs : List Nat} {valStart : Nat} {last : UInt8} (hi : idxs.length = ups.length + 1) :
    PcRel h0 c0 up0 ⟨a.heap, a.core, a.braces, idxs, a.inQuote, a.start, a.stop, a.key, valStart, last⟩
      ⟨b.cur, b.ups, b.braces, idxs, b.inQuote, b.start, b.stop, b.key, valStart, last⟩ cur ups := by
  obtain ⟨r1, r2, r3, r4, -, -⟩ := hr.rest
  exact ⟨hr.core, hr.here, hr.opens, hr.nodup, hr.curE, hr.upsE, hr.fresh, hr.frame, hr.root, hr.braces, ⟨rfl, hi⟩, ⟨r1, r2, r3, r4, rfl, rfl⟩, hr.grow⟩

theorem child_eq {a : PcP} {c : Nat} (hc : a.core = some c) (l v : Bytes) :
    a.child l v = some (NHeap.addDown (a.heap ++ [⟨l, v, some c, []⟩]) c a.heap.length, a.heap.length) := by
  unfold PcP.child
  rw [hc]
  rfl

theorem pc_step (json : Bytes) (i : Nat) (a : PcP) (b : PcSt) (hs : PcSim h0 c0 up0 a b) :
    CtlRel (PcSim h0 c0 up0) (fun _ _ => True) (pcBodyP json i a) (pcBody json i b) := by
  obtain ⟨cur, ups, hr⟩ := hs
  obtain ⟨ah, ac, ab, ai, aq, as, ae, ak, av, al⟩ := a
  obtain ⟨bc, bu, bb, bi, bq, bs, be, bk, bv, bl⟩ := b
  have hcore := hr.core
  obtain ⟨hb1, hb2⟩ := hr.braces
  obtain ⟨hi1, hi2⟩ := hr.idxs
  obtain ⟨r1, r2, r3, r4, r5, r6⟩ := hr.rest
  simp only at hcore hb1 hb2 hi1 hi2 r1 r2 r3 r4 r5 r6
  subst hb1 hi1 r1 r2 r3 r4 r5 r6
  obtain ⟨n, idxs, rfl⟩ : ∃ n idxs, ai = n :: idxs := by
    cases ai with
    | nil => simp at hi2
    | cons n idxs => exact ⟨n, idxs, rfl⟩
  have hidl : idxs.length = ups.length := by simpa using hi2
  have hup := hr.upsE
  have hbc := hr.curE
  simp only at hup hbc
  subst hup hbc
  have hlab : PcP.label ⟨ah, ac, ab, n :: idxs, aq, as, ae, ak, av, al⟩ = some (if al == 58 then ak else itoa (n : Int)) := by
    unfold PcP.label
    cases al == 58 <;> rfl
  have hchild := fun l v => child_eq (a := ⟨ah, ac, ab, n :: idxs, aq, as, ae, ak, av, al⟩) (c := cur.ptr) hcore l v
  have hleaf : PcP.leaf json i ⟨ah, ac, ab, n :: idxs, aq, as, ae, ak, av, al⟩ =
      match slice json av i with
      | .ok v => some (NHeap.addDown (ah ++ [⟨if al == 58 then ak else itoa (n : Int), v, some cur.ptr, []⟩]) cur.ptr ah.length)
      | _ => none := by
    unfold PcP.leaf
    rw [hlab]
    cases slice json av i with
    | ok v => simp only [hchild, Option.map_some]
    | err e => rfl
    | panic => rfl
  unfold pcBodyP pcBody
  cases json[i]? with
  | none => trivial
  | some c =>
    simp only
    split
    · exact ⟨cur, ups, hr⟩
    split
    · split
      · cases quoteScan json i i with
        | real => exact ⟨cur, ups, hr.keep⟩
        | escaped => exact ⟨cur, ups, hr⟩
        | off => exact ⟨cur, ups, hr.keep⟩
      · exact ⟨cur, ups, hr.keep⟩
    split
    · exact ⟨cur, ups, hr⟩
    split
    · rw [hlab]
      simp only [hchild]
      exact ⟨_, _, hr.open_ _⟩
    by_cases h93 : (c == 93 || c == 125) = true
    · rw [if_pos h93, if_pos h93, hleaf]
      have hmain : ∀ (h1 : NHeap) (cur1 : PTree) (vs : Nat) (nd : Out (Node × Nat)), nd = .ok (cur1.erase, vs) → PcRel h0 c0 up0 ⟨h1, ac, ab, n :: idxs, aq, as, ae, ak, vs, al⟩
          ⟨cur1.erase, ups.map PTree.erase, ab, n :: idxs, aq, as, ae, ak, vs, al⟩ cur1 ups → cur1.ptr = cur.ptr →
          CtlRel (PcSim h0 c0 up0) (fun _ _ => True)
            (match ac, ab with
            | some c', b :: braces =>
              match slice json b (i + 1), n :: idxs with
              | .ok v, _ :: idxs =>
                (.next ⟨h1.setValue c' v, (h1.setValue c' v)[c']?.bind NodeRec.up, braces, idxs, aq, as, ae, ak, vs, c⟩ : Ctl PcP Unit)
              | _, _ => .ret ()
            | _, _ => .ret ())
            (match nd, ab, ups.map PTree.erase with
            | .ok (cur, valStart), b :: braces, up :: ups =>
              match slice json b (i + 1) with
              | .ok v => (.next ⟨up.addChild (cur.setValue v), ups, braces, idxs, aq, as, ae, ak, valStart, c⟩ : Ctl PcSt Unit)
              | _ => .ret ()
            | _, _, _ => .ret ()) := by
        intro h1 cur1 vs nd hnd hr1 hp
        subst hnd
        rw [hcore]
        cases ab with
        | nil => trivial
        | cons b0 braces =>
          cases ups with
          | nil => simp at hb2
          | cons u ups =>
            simp only [List.map_cons]
            cases slice json b0 (i + 1) with
            | ok v =>
              have := hr1.close v (braces := braces) (idxs := idxs) (valStart := vs) (last := c) (by simpa using hb2) (by simpa using hidl)
              rw [hp] at this
              exact ⟨_, _, this⟩
            | err e => trivial
            | panic => trivial
      by_cases h58 : al == 58
      · simp only [h58, if_true]
        cases slice json av i with
        | err e => trivial
        | panic => trivial
        | ok v =>
          simp only [Option.map_some]
          have := hr.leaf ak v (braces := ab) (idxs := n :: idxs) (valStart := av) (last := al) hb2 hi2
          exact hmain _ (cur.addKid (.mk ah.length ak v [])) _ _ (by rw [addKid_erase]; rfl) (by rw [addKid_erase]; exact this) rfl
      · simp only [h58, Bool.false_eq_true, if_false]
        by_cases h44 : al == 44
        · simp only [h44, if_true]
          cases slice json av i with
          | err e => trivial
          | panic => trivial
          | ok v =>
            simp only [Option.map_some]
            have := hr.leaf (itoa (n : Int)) v (braces := ab) (idxs := n :: idxs) (valStart := i + 1) (last := al) hb2 hi2
            exact hmain _ (cur.addKid (.mk ah.length (itoa (n : Int)) v [])) _ _ (by rw [addKid_erase]; rfl) (by rw [addKid_erase]; exact this) rfl
        · simp only [h44, Bool.false_eq_true, if_false]
          exact hmain _ cur _ _ rfl hr rfl
    rw [if_neg h93, if_neg h93]
    by_cases h58' : (c == 58) = true
    · rw [if_pos h58', if_pos h58']
      cases slice json as ae with
      | err e => trivial
      | panic => trivial
      | ok v => exact ⟨cur, ups, hr.keep⟩
    rw [if_neg h58', if_neg h58']
    by_cases h44' : (c == 44) = true
    · rw [if_pos h44', if_pos h44', hleaf]
      have hi' : ((n + 1) :: idxs).length = ups.length + 1 := by simp [hidl]
      by_cases h58 : al == 58
      · simp only [h58, if_true]
        cases slice json av i with
        | err e => trivial
        | panic => trivial
        | ok v => exact ⟨_, _, hr.leaf ak v hb2 hi'⟩
      · simp only [h58, Bool.false_eq_true, if_false]
        by_cases h44 : (al == 44 || al == 91) = true
        · simp only [h44, if_true]
          cases slice json av i with
          | err e => trivial
          | panic => trivial
          | ok v => exact ⟨_, _, hr.leaf (itoa (n : Int)) v hb2 hi'⟩
        · simp only [h44, Bool.false_eq_true, if_false]
          exact ⟨_, _, hr.moveIdx hi'⟩
    · rw [if_neg h44', if_neg h44']
      exact ⟨cur, ups, hr⟩

end

/-- `pCore` into a node without children: both panic, or the tree is in memory.  Nothing else changes. -/
theorem pCore_rel (json : Bytes) {h0 : NHeap} {c0 : Nat} {up0 : Option Nat} {l v : Bytes} (hc : h0[c0]? = some ⟨l, v, up0, []⟩) :
    match pCoreP json c0 h0, pCore json (.mk l v []) with
    | some h, .ok n => ∃ t : PTree, t.ptr = c0 ∧ Here h up0 t ∧ t.ptrs.Nodup ∧ t.erase = n ∧ (∀ x ∈ t.ptrs, x = c0 ∨ h0.length ≤ x) ∧
        (∀ x, x < h0.length → x ≠ c0 → h[x]? = h0[x]?) ∧ h0.length ≤ h.length
    | none, .panic => True
    | _, _ => False := by
  have h0' : Here h0 up0 (.mk c0 l v []) := ⟨hc, trivial⟩
  unfold pCoreP pCore
  by_cases hl : json.length < 2
  · rw [if_pos hl, if_pos hl]
    exact ⟨.mk c0 l v [], rfl, h0', by simp [PTree.ptrs, ptrsL], rfl, by simp [PTree.ptrs, ptrsL], fun _ _ _ => rfl, Nat.le_refl _⟩
  · rw [if_neg hl, if_neg hl]
    cases skipSpaces json 0 with
    | none => trivial
    | some start =>
      simp only
      have := forUp_sim (hi := json.length) (S := PcSim h0 c0 up0) (R := fun _ _ => True) (pc_step json) (i := start)
        (s := ⟨h0, some c0, [], [0], false, start, 0, [], 0, 0⟩) (t := ⟨.mk l v [], [], [], [0], false, start, 0, [], 0, 0⟩)
        ⟨.mk c0 l v [], [], rfl, h0', trivial, by simp [zptrs, PTree.ptrs, ptrsL], rfl, rfl, by simp [zptrs, PTree.ptrs, ptrsL], fun _ _ _ => rfl, rfl,
          ⟨rfl, rfl⟩, ⟨rfl, rfl⟩, ⟨rfl, rfl, rfl, rfl, rfl, rfl⟩, Nat.le_refl _⟩
      cases h1 : forUp json.length (pcBodyP json) start ⟨h0, some c0, [], [0], false, start, 0, [], 0, 0⟩ <;>
        cases h2 : forUp json.length (pcBody json) start ⟨.mk l v [], [], [], [0], false, start, 0, [], 0, 0⟩ <;>
        rw [h1, h2] at this <;> try exact this.elim
      · obtain ⟨cur, ups, hr⟩ := this
        refine ⟨foldP cur ups, hr.root, fold_here hr.here hr.opens, by rw [fold_ptrs.nodup_iff]; exact hr.nodup, ?_,
          fun x hx => hr.fresh x (fold_ptrs.mem_iff.1 hx), hr.frame, hr.grow⟩
        rw [fold_erase, hr.curE, hr.upsE]
      · trivial

end Jin
