import Verif.Proof.PtrOps
/-!
# Proof.PtrInsert — `Insert` of `Parser` on pointers and on trees
-/

namespace Jin

variable {h h' h1 h2 h0 : NHeap} {up upd : Option Nat} {t t0 t' s s' u u' d : PTree} {q : Nat} {path : List Bytes} {p : ParserP} {P : Parser}

theorem put_put (hp : s.ptr = q) : (t.put q s).put q s' = t.put q s' := by
  induction t using PTree.ind with
  | H p l v ds ih =>
    rw [PTree.put, PTree.put]
    by_cases e : p = q
    · rw [if_pos e, if_pos e, ← hp, put_self]
    · rw [if_neg e, if_neg e, PTree.put, if_neg e, putL_map, putL_map, putL_map, List.map_map]
      congr 1
      exact List.map_congr_left fun d hd => ih d hd

/-- `relabel` on trees with addresses. -/
def relabelT (index : Nat) : Nat → List PTree → List PTree
  | _, [] => []
  | i, d :: ds => (if index ≤ i then .mk d.ptr (itoa (i + 1)) d.value d.down else d) :: relabelT index (i + 1) ds

theorem relabelT_ptr {index : Nat} : ∀ {ds : List PTree} {i : Nat}, (relabelT index i ds).map PTree.ptr = ds.map PTree.ptr
  | [], _ => rfl
  | d :: ds, i => by
    rw [relabelT, List.map_cons, List.map_cons, relabelT_ptr]
    split <;> rfl

theorem relabelT_ptrs {index : Nat} : ∀ {ds : List PTree} {i : Nat}, ptrsL (relabelT index i ds) = ptrsL ds
  | [], _ => rfl
  | d :: ds, i => by
    rw [relabelT, ptrsL, ptrsL, relabelT_ptrs]
    split
    · cases d; rfl
    · rfl

theorem relabelT_erase {index : Nat} : ∀ {ds : List PTree} {i : Nat}, (relabelT index i ds).map PTree.erase = relabel index i (ds.map PTree.erase)
  | [], _ => rfl
  | d :: ds, i => by
    rw [relabelT, List.map_cons, List.map_cons, relabel, relabelT_erase]
    split
    · cases d; rfl
    · rfl

theorem relabelP_length {index : Nat} : ∀ {ds : List Nat} {i : Nat} {h : NHeap}, (relabelP index i ds h).length = h.length
  | [], _, _ => rfl
  | d :: ds, i, h => by
    rw [relabelP, relabelP_length]
    split
    · simp [NHeap.setLabel]
    · rfl

theorem relabelP_cell {index x : Nat} : ∀ {ds : List Nat} {i : Nat} {h : NHeap}, x ∉ ds → (relabelP index i ds h)[x]? = h[x]?
  | [], _, _, _ => rfl
  | d :: ds, i, h, hx => by
    rw [relabelP, relabelP_cell fun hx' => hx (List.mem_cons_of_mem _ hx')]
    split
    · exact modify_ne fun e => hx (e ▸ List.mem_cons_self)
    · rfl

theorem relabelP_comm {index c : Nat} {f : NodeRec → NodeRec} : ∀ {ds : List Nat} {i : Nat} {h : NHeap}, c ∉ ds →
    relabelP index i ds (h.modify c f) = (relabelP index i ds h).modify c f
  | [], _, _, _ => rfl
  | d :: ds, i, h, hx => by
    rw [relabelP, relabelP]
    have hds : c ∉ ds := fun hx' => hx (List.mem_cons_of_mem _ hx')
    split
    · rw [← relabelP_comm hds]
      congr 1
      exact ptr_modify_comm fun e => hx (e ▸ List.mem_cons_self)
    · exact relabelP_comm hds

theorem relabelP_append {index : Nat} : ∀ {a b : List Nat} {i : Nat} {h : NHeap}, relabelP index i (a ++ b) h = relabelP index (i + a.length) b (relabelP index i a h)
  | [], _, _, _ => rfl
  | d :: a, b, i, h => by
    rw [List.cons_append, relabelP, relabelP, relabelP_append, List.length_cons, Nat.add_right_comm, Nat.add_assoc]

theorem ptr_ptrsL {ds : List PTree} {x : Nat} (hx : x ∈ ds.map PTree.ptr) : x ∈ ptrsL ds := by
  obtain ⟨d, hd, rfl⟩ := List.mem_map.1 hx
  exact mem_ptrsL.2 ⟨d, hd, ptr_mem d⟩

theorem relabelP_here {index : Nat} {p : Nat} : ∀ {ds : List PTree} {i : Nat} {h : NHeap}, (∀ d ∈ ds, Here h (some p) d) → (ptrsL ds).Nodup →
    ∀ d ∈ relabelT index i ds, Here (relabelP index i (ds.map PTree.ptr) h) (some p) d
  | [], _, _, _, _, d, hd => by cases hd
  | e :: ds, i, h, hh, hn, d, hd => by
    rw [ptrsL, List.nodup_append] at hn
    obtain ⟨hn1, hn2, hn3⟩ := hn
    rw [List.map_cons, relabelP]
    have he := hh e List.mem_cons_self
    have hrest : ∀ d ∈ ds, Here (if index ≤ i then h.setLabel e.ptr (itoa (i + 1)) else h) (some p) d := by
      intro d hd
      have := hh d (List.mem_cons_of_mem _ hd)
      split
      · refine this.frame fun x hx => modify_ne fun e' => ?_
        exact hn3 e.ptr (ptr_mem e) x (mem_ptrsL.2 ⟨d, hd, hx⟩) e'
      · exact this
    rw [relabelT, List.mem_cons] at hd
    rcases hd with rfl | hd
    · have hin : Here (if index ≤ i then h.setLabel e.ptr (itoa (i + 1)) else h) (some p) (if index ≤ i then .mk e.ptr (itoa (i + 1)) e.value e.down else e) := by
        split
        · exact (InMem.mod (f := fun r => { r with label := itoa (i + 1) }) ⟨he, hn1⟩ rfl).here
        · exact he
      refine hin.frame fun x hx => relabelP_cell fun hx' => hn3 x ?_ x (ptr_ptrsL hx') rfl
      split at hx
      · rw [ptrs_split]; exact hx
      · exact hx
    · exact relabelP_here hrest hn2 d hd

/-- The children of a node are relabelled. -/
theorem Two.relabel (index : Nat) (ht : Two h0 t0 up h t upd d) (hw : t.walk path = some u) :
    Two h0 t0 up (relabelP index 0 (u.down.map PTree.ptr) h) (t.put u.ptr (.mk u.ptr u.label u.value (relabelT index 0 u.down))) upd d ∧
      (t.put u.ptr (.mk u.ptr u.label u.value (relabelT index 0 u.down))).walk path = some (.mk u.ptr u.label u.value (relabelT index 0 u.down)) := by
  have hsub := walk_sub hw
  have hund := hsub.nodup ht.now.mem.nodup
  have hptrs : (PTree.mk u.ptr u.label u.value (relabelT index 0 u.down)).ptrs = u.ptrs := by
    rw [PTree.ptrs, relabelT_ptrs, ptrs_split]
  have hn2 := hund
  rw [ptrs_split, List.nodup_cons] at hn2
  obtain ⟨c1, -⟩ := ht.now.change (h' := relabelP index 0 (u.down.map PTree.ptr) h) (u' := .mk u.ptr u.label u.value (relabelT index 0 u.down))
    (g := fun _ => (PTree.mk u.ptr u.label u.value (relabelT index 0 u.down)).erase) hw rfl
    (fun v hv => ⟨by rw [relabelP_cell fun hx => hn2.1 (ptr_ptrsL hx), hv.cell, relabelT_ptr], hereL_iff.2 (relabelP_here hv.kids hn2.2)⟩)
    (by rw [hptrs]; exact hund) (fun x hx => .inl (by rwa [hptrs] at hx))
    (fun x hx _ => relabelP_cell fun hx' => hx (by rw [ptrs_split]; exact List.mem_cons_of_mem _ (ptr_ptrsL hx')))
    (by rw [relabelP_length]; exact Nat.le_refl _) rfl
  refine ⟨⟨c1, ⟨ht.node.here.frame fun x hx => relabelP_cell fun hx' => ht.apart x hx (hsub.mem x ?_), ht.node.nodup⟩, fun x hx hxt => ?_, ht.fresh⟩, ?_⟩
  · rw [ptrs_split]; exact List.mem_cons_of_mem _ (ptr_ptrsL hx')
  · rcases mem_put hxt with h | ⟨h, -⟩
    · exact ht.apart x hx h
    · exact ht.apart x hx (hsub.mem x (by rwa [hptrs] at h))
  · have := walk_put (s' := .mk u.ptr u.label u.value (relabelT index 0 u.down)) ht.now.mem.nodup hw .refl fun _ => rfl
    rwa [put_self] at this

/-- `node.insert`. -/
theorem insert_two {index : Int} (ht : Two h0 t0 up h t upd d) (hw : t.walk path = some u) :
    (h.insert d.ptr u.ptr index = .panic ∧ u.erase.insertInto index = .panic) ∨
    (∃ e, h.insert d.ptr u.ptr index = .err e ∧ u.erase.insertInto index = .err e) ∨
    (∃ h' u', h.insert d.ptr u.ptr index = .ok h' ∧ u.erase.insertInto index = .ok u'.erase ∧ u'.ptr = u.ptr ∧
      h' = ((relabelP index.toNat 0 (u.down.map PTree.ptr) h).setLabel d.ptr (itoa index)).setUp d.ptr (some u.ptr) ∧
      u' = .mk u.ptr u.label u.value (relabelT index.toNat 0 u.down) ∧
      Two h0 t0 up h' (t.put u.ptr u') (some u.ptr) (.mk d.ptr (itoa index) d.value d.down) ∧ (t.put u.ptr u').walk path = some u') := by
  obtain ⟨v, hv⟩ := (walk_sub hw).here ht.now.mem.here
  unfold NHeap.insert Node.insertInto
  rw [hv.cell]
  simp only
  rw [show u.erase.down.length = (u.down.map PTree.ptr).length by rw [erase_down, List.length_map, List.length_map]]
  by_cases hl : ((u.down.map PTree.ptr).length != 0) = true
  · rw [if_pos hl, if_pos hl]
    by_cases hlt : ((u.down.map PTree.ptr).length : Int) - 1 < index
    · rw [if_pos hlt, if_pos hlt]; exact .inr (.inl ⟨_, rfl, rfl⟩)
    rw [if_neg hlt, if_neg hlt]
    by_cases hneg : index < 0
    · rw [if_pos hneg, if_pos hneg]; exact .inl ⟨rfl, rfl⟩
    rw [if_neg hneg, if_neg hneg]
    obtain ⟨c1, c2⟩ := ht.relabel index.toNat hw
    have c3 := c1.mod (f := fun r => { r with label := itoa index }) (l := itoa index) (v := d.value) rfl
    have c4 := c3.mod (f := fun r => { r with up := some u.ptr }) (upd' := some u.ptr) (l := itoa index) (v := d.value) rfl
    refine .inr (.inr ⟨_, .mk u.ptr u.label u.value (relabelT index.toNat 0 u.down), rfl, ?_, rfl, rfl, rfl, c4, c2⟩)
    rw [PTree.erase, eraseL_map, relabelT_erase, erase_down]
    cases u; rfl
  · rw [if_neg hl, if_neg hl]; exact .inr (.inl ⟨_, rfl, rfl⟩)

theorem ptr_relabel_length {index : Nat} : ∀ {ds : List Node} {i : Nat}, (relabel index i ds).length = ds.length
  | [], _ => rfl
  | _ :: ds, i => by rw [relabel, List.length_cons, List.length_cons, ptr_relabel_length]

/-- A second pass over the same children does not fail. -/
theorem insertInto_again {n m : Node} {index : Int} (hn : n.insertInto index = .ok m) : ∃ m', m.insertInto index = .ok m' := by
  unfold Node.insertInto at hn ⊢
  split at hn
  · next h1 =>
    split at hn
    · cases hn
    · next h2 =>
      split at hn
      · cases hn
      · next h3 =>
        cases hn
        rw [show (n.setDown (relabel index.toNat 0 n.down)).down = relabel index.toNat 0 n.down by cases n; rfl, ptr_relabel_length]
        rw [if_pos h1, if_neg h2, if_neg h3]
        exact ⟨_, rfl⟩
  · cases hn

theorem bareNode_two {c : Bool} {label newVal : Bytes} (ht : InMem h up t) :
    (bareNodeP h c newVal = none ∧
      (if c then (pCore newVal (.mk [] [] [])).map fun n => n.setLabel label else Out.ok (.mk label [] [])) = .panic) ∨
    (∃ h' d, bareNodeP h c newVal = some (h', d.ptr) ∧
      (if c then (pCore newVal (.mk [] [] [])).map fun n => n.setLabel label else Out.ok (.mk label [] [])) =
        .ok (PTree.mk d.ptr label d.value d.down).erase ∧ Two h t up h' t none d) := by
  unfold bareNodeP
  cases c with
  | false => exact .inr ⟨_, .mk h.length [] [] [], rfl, rfl, create_two ht⟩
  | true =>
    have := parse_two newVal ht
    simp only [if_true]
    rw [show (createNode h none).2 = h.length from rfl]
    revert this
    cases pCoreP newVal h.length (createNode h none).1 with
    | none =>
      cases pCore newVal (.mk [] [] []) with
      | ok n => exact fun h => h.elim
      | err e => exact fun h => h.elim
      | panic => exact fun _ => .inl ⟨rfl, rfl⟩
    | some h' =>
      cases pCore newVal (.mk [] [] []) with
      | err e => exact fun h => h.elim
      | panic => exact fun h => h.elim
      | ok n =>
        rintro ⟨d, d1, d2, d3⟩
        refine .inr ⟨h', d, by rw [d2]; rfl, ?_, d1⟩
        rw [← d3]
        cases d; rfl

theorem modify_id {α : Type} {l : List α} {i : Nat} {f : α → α} (hf : ∀ x, l[i]? = some x → f x = x) : l.modify i f = l := by
  apply List.ext_getElem?
  intro k
  rw [List.getElem?_modify]
  by_cases e : i = k
  · subst e
    cases hx : l[i]? with
    | none => rfl
    | some x => simp [hf x hx]
  · simp [e]

/-- `node.insert` when the new node is the last child already: the second pass gives it its own label back. -/
theorem insert_add {index : Int} (ht : Two h0 t0 up h t (some u.ptr) d) (hw : t.walk path = some u) (hl : d.label = itoa index)
    (hlt : ¬ ((u.down.length : Int) - 1 < index)) (hneg : ¬ index < 0) :
    (h.addDown u.ptr d.ptr).insert d.ptr u.ptr index = .ok ((relabelP index.toNat 0 (u.down.map PTree.ptr) h).addDown u.ptr d.ptr) ∧
      ((relabelP index.toNat 0 (u.down.map PTree.ptr) h).addDown u.ptr d.ptr).setUp d.ptr (some u.ptr) =
        (relabelP index.toNat 0 (u.down.map PTree.ptr) h).addDown u.ptr d.ptr := by
  have hne := ht.ne (walk_sub hw)
  obtain ⟨v, hv⟩ := (walk_sub hw).here ht.now.mem.here
  have hund := (walk_sub hw).nodup ht.now.mem.nodup
  have hcell : (h.addDown u.ptr d.ptr)[u.ptr]? = some ⟨u.label, u.value, v, u.down.map PTree.ptr ++ [d.ptr]⟩ := modify_at hv.cell
  obtain ⟨c1, -⟩ := ht.relabel index.toNat hw
  have hq : ((relabelP index.toNat 0 (u.down.map PTree.ptr) h).addDown u.ptr d.ptr)[d.ptr]? = some ⟨itoa index, d.value, some u.ptr, d.down.map PTree.ptr⟩ := by
    rw [← hl, ← c1.node.here.cell]
    exact modify_ne hne.symm
  have hU : ((relabelP index.toNat 0 (u.down.map PTree.ptr) h).addDown u.ptr d.ptr).setUp d.ptr (some u.ptr) =
      (relabelP index.toNat 0 (u.down.map PTree.ptr) h).addDown u.ptr d.ptr :=
    modify_id fun x hx => by rw [hq] at hx; cases hx; rfl
  have hL : ((relabelP index.toNat 0 (u.down.map PTree.ptr) h).addDown u.ptr d.ptr).setLabel d.ptr (itoa index) =
      (relabelP index.toNat 0 (u.down.map PTree.ptr) h).addDown u.ptr d.ptr :=
    modify_id fun x hx => by rw [hq] at hx; cases hx; rfl
  refine ⟨?_, hU⟩
  unfold NHeap.insert
  rw [hcell]
  simp only
  rw [if_pos (by simp), if_neg (by simp; omega), if_neg hneg, relabelP_append]
  have hcomm : relabelP index.toNat 0 (u.down.map PTree.ptr) (h.addDown u.ptr d.ptr) =
      (relabelP index.toNat 0 (u.down.map PTree.ptr) h).addDown u.ptr d.ptr := relabelP_comm fun hx => nodup_down hund (ptr_ptrsL hx)
  rw [hcomm, relabelP, relabelP]
  have : ∀ (X : NHeap) (n : Nat), X.setLabel d.ptr (itoa index) = X → (if index.toNat ≤ n then X.setLabel d.ptr (itoa (n + 1)) else X).setLabel d.ptr (itoa index) = X := by
    intro X n hX
    split
    · unfold NHeap.setLabel at hX ⊢
      rw [ptr_modify_modify]
      exact hX
    · exact hX
  rw [this _ _ hL, hU]

theorem insert_sim (hr : Rep h p P up t) (index : Int) (newVal : Bytes) (path : List Bytes) :
    PRel h up t (p.Insert h index newVal path) (P.Insert index newVal path) := by
  unfold ParserP.Insert Parser.Insert
  by_cases hk0 : (newVal.length == 0) = true
  · rw [if_pos hk0, if_pos hk0]; exact hr.same
  rw [if_neg hk0, if_neg hk0, get_sim hr path]
  cases hget : P.Get path with
  | panic => trivial
  | err e => exact hr.same
  | ok json =>
    simp only
    rcases hr.walk path with ⟨u, hw, h2, h3⟩ | ⟨e, h1, h2, h3⟩
    · rw [h2, h3]
      simp only
      cases henc : enclosed json 91 93 .arrayExpected with
      | some e => exact hr.same
      | none =>
        simp only
        generalize opensContainer newVal = c
        rcases bareNode_two (c := c) (label := itoa index) (newVal := newVal) hr.holds with ⟨e1, e2⟩ | ⟨h1, d, e1, e2, hd⟩
        · rw [e1, e2]; trivial
        rw [e1, e2]
        simp only
        rcases insert_two (index := index) hd hw with ⟨i1, i2⟩ | ⟨e, i1, i2⟩ | ⟨ha, ua, i1, i2, i3, i4, i5, i6, i7⟩
        · rw [i1, i2]; trivial
        · rw [i1, i2]
          exact hd.now.keep hr rfl
        rw [i1, i2]
        simp only
        have hval := i6.mod (f := fun r => { r with value := newVal }) (l := itoa index) (v := newVal) rfl
        by_cases h0 : (path.length == 0) = true
        · have hp : path = [] := by simpa using h0
          subst hp
          have htu : t = u := by cases hw; rfl
          subst htu
          rw [if_pos h0, if_pos h0]
          have hta : t.put t.ptr ua = ua := put_self
          rw [hta] at i6 i7 hval
          by_cases hc : c = true
          · rw [if_pos hc, if_pos hc, hr.json]
            cases hj : Jin.Insert P.json index newVal [] with
            | panic => trivial
            | done json' e =>
              cases e with
              | some e => exact i6.now.done hr.core rfl
              | none =>
                simp only
                obtain ⟨m, hm⟩ := insertInto_again i2
                rcases insert_two (index := index) i6 i7 with ⟨j1, j2⟩ | ⟨e, j1, j2⟩ | ⟨hb, ub, j1, j2, j3, j4, j5, j6, j7⟩
                · rw [hm] at j2; cases j2
                · rw [hm] at j2; cases j2
                rw [i3] at j1
                rw [show NHeap.insert ha d.ptr t.ptr index = _ from j1, j2]
                simp only
                have := j6.attach' j7
                rw [show ua.put ua.ptr ub = ub from put_self, j3, i3] at this
                exact this.1.done hr.core (by rw [this.2.1]; rfl)
          · rw [if_neg hc, if_neg hc, hr.json]
            have hval' : Two h t up (ha.setValue d.ptr newVal) ua (some ua.ptr) (.mk d.ptr (itoa index) newVal d.down) := by rw [i3]; exact hval
            have hadd := hval'.add i7
            rw [show ua.put ua.ptr (ua.addKid (.mk d.ptr (itoa index) newVal d.down)) = _ from put_self, i3, show (PTree.mk d.ptr (itoa index) newVal d.down).ptr = d.ptr from rfl] at hadd
            have herase : (ua.addKid (.mk d.ptr (itoa index) newVal d.down)).erase =
              ua.erase.addChild ((PTree.mk d.ptr (itoa index) d.value d.down).erase.setValue newVal) := by rw [addKid_erase]; rfl
            cases hj : Jin.Insert P.json index newVal [] with
            | panic => trivial
            | done json' e =>
              cases e with
              | some e => exact hadd.1.done hr.core herase
              | none =>
                simp only
                have hlen : ua.down.length = t.down.length := by
                  rw [i5, ← List.length_map (f := PTree.ptr)]
                  show ((relabelT index.toNat 0 t.down).map PTree.ptr).length = _
                  rw [relabelT_ptr, List.length_map]
                have hcond : ¬ ((ua.down.length : Int) - 1 < index) ∧ ¬ index < 0 := by
                  rw [hlen]
                  unfold Node.insertInto at i2
                  rw [erase_down, List.length_map] at i2
                  split at i2
                  · split at i2
                    · cases i2
                    · split at i2
                      · cases i2
                      · exact ⟨by assumption, by assumption⟩
                  · cases i2
                obtain ⟨k1, k2⟩ := insert_add hval' i7 rfl hcond.1 hcond.2
                rw [i3] at k1 k2
                rw [show NHeap.insert (NHeap.addDown (ha.setValue d.ptr newVal) t.ptr d.ptr) d.ptr t.ptr index = _ from k1]
                obtain ⟨m, hm⟩ := insertInto_again i2
                rcases insert_two (index := index) hval' i7 with ⟨j1, j2⟩ | ⟨e, j1, j2⟩ | ⟨hb, ub, j1, j2, j3, j4, j5, j6, j7⟩
                · rw [hm] at j2; cases j2
                · rw [hm] at j2; cases j2
                rw [j2]
                obtain ⟨r1, r2⟩ := hval'.relabel index.toNat i7
                rw [← j5, put_self] at r1 r2
                rw [← j3] at r1
                have := r1.add r2
                rw [put_self, j3, i3] at this
                simp only
                rw [show NHeap.setUp _ d.ptr (some t.ptr) = _ from k2]
                exact this.1.done hr.core (by rw [addKid_erase]; rfl)
        · rw [if_neg h0, if_neg h0, hr.json]
          obtain ⟨b1, b2, b3, b4⟩ := hval.attach' i7
          rw [i3] at b1 b2 b3 b4
          rw [put_put i3] at b1 b2 b3
          have herase : (t.put u.ptr (ua.addKid (.mk d.ptr (itoa index) newVal d.down))).erase =
              P.core.updAt (fun _ => ua.erase.addChild ((PTree.mk d.ptr (itoa index) d.value d.down).erase.setValue newVal)) path := by
            rw [← hr.erase]
            refine put_erase hr.holds.nodup hw ?_
            rw [addKid_erase]; rfl
          cases hj : Jin.Insert P.json index newVal path with
          | panic => trivial
          | done json' e =>
            cases e with
            | some e => exact b1.done hr.core herase
            | none =>
              exact Now.finish (Nat.le_refl 1) (Nat.le_refl _) hr.core b1 (by rw [List.take_length]; exact b3) (b4.trans (by rw [← i3]; rfl)) herase
    · rw [h2, h3]
      exact hr.same

end Jin
