import Verif.Proof.PtrMut
/-!
# Proof.PtrNode — a new node in memory, and what the mutators do with it
-/

namespace Jin

variable {h h' h1 h2 h0 : NHeap} {up upd : Option Nat} {t t0 t' s s' u u' d : PTree} {q : Nat} {path : List Bytes}

theorem ptr_modify_comm {α : Type} {l : List α} {i j : Nat} {f g : α → α} (hij : i ≠ j) : (l.modify i f).modify j g = (l.modify j g).modify i f := by
  apply List.ext_getElem?
  intro k
  simp only [List.getElem?_modify]
  cases l[k]? with
  | none => rfl
  | some x =>
    by_cases h1 : i = k <;> by_cases h2 : j = k <;> simp [h1, h2]
    omega

theorem ptr_modify_modify {α : Type} {l : List α} {i : Nat} {f g : α → α} : (l.modify i f).modify i g = l.modify i (g ∘ f) := by
  apply List.ext_getElem?
  intro k
  simp only [List.getElem?_modify]
  cases l[k]? with
  | none => rfl
  | some x => by_cases h1 : i = k <;> simp [h1]

theorem modify_ne {α : Type} {l : List α} {i j : Nat} {f : α → α} (hij : i ≠ j) : (l.modify i f)[j]? = l[j]? := List.getElem?_modify_ne _ _ hij

theorem modify_at {α : Type} {l : List α} {i : Nat} {f : α → α} {x : α} (hx : l[i]? = some x) : (l.modify i f)[i]? = some (f x) := by
  rw [List.getElem?_modify, hx]; simp

/-- The root of a tree changes, but not its children. -/
theorem InMem.mod {f : NodeRec → NodeRec} {l v : Bytes} (ht : InMem h up t)
    (hf : f ⟨t.label, t.value, up, t.down.map PTree.ptr⟩ = ⟨l, v, upd, t.down.map PTree.ptr⟩) :
    InMem (h.modify t.ptr f) upd (.mk t.ptr l v t.down) := by
  obtain ⟨p, l0, v0, ds⟩ := t
  refine ⟨⟨(modify_at (f := f) ht.here.1).trans (congrArg some hf), hereL_iff.2 fun e he => ?_⟩, ht.nodup⟩
  refine (hereL_iff.1 ht.here.2 e he).frame fun x hx => modify_ne fun e' => (nodup_mk.1 ht.nodup).1 ?_
  exact mem_ptrsL.2 ⟨e, he, by rw [show p = x from e']; exact hx⟩

/-- A tree `t` and a new tree `d` beside it. -/
structure Two (h0 : NHeap) (t0 : PTree) (up : Option Nat) (h : NHeap) (t : PTree) (upd : Option Nat) (d : PTree) : Prop where
  now : Now h0 t0 up h t
  node : InMem h upd d
  apart : ∀ x ∈ d.ptrs, x ∉ t.ptrs
  fresh : ∀ x ∈ d.ptrs, h0.length ≤ x

theorem Now.frame (ht : Now h0 t0 up h t) (hf : ∀ x, x ∈ t.ptrs ∨ x < h0.length → h'[x]? = h[x]?) (hgr : h.length ≤ h'.length) : Now h0 t0 up h' t :=
  ⟨⟨ht.mem.here.frame fun x hx => hf x (.inl hx), ht.mem.nodup⟩,
    ⟨fun x hx hxt => by rw [hf x (.inr hx), ht.safe.frame x hx hxt], ht.safe.fresh, Nat.le_trans ht.safe.grow hgr⟩, ht.root⟩

theorem Two.ne (ht : Two h0 t0 up h t upd d) (hs : Sub u t) : d.ptr ≠ u.ptr := fun e =>
  ht.apart _ (ptr_mem d) (by rw [e]; exact hs.mem _ (ptr_mem u))

/-- The new node changes. -/
theorem Two.mod {f : NodeRec → NodeRec} {l v : Bytes} {upd' : Option Nat} (ht : Two h0 t0 up h t upd d)
    (hf : f ⟨d.label, d.value, upd, d.down.map PTree.ptr⟩ = ⟨l, v, upd', d.down.map PTree.ptr⟩) :
    Two h0 t0 up (h.modify d.ptr f) t upd' (.mk d.ptr l v d.down) := by
  have hp : (PTree.mk d.ptr l v d.down).ptrs = d.ptrs := by cases d; rfl
  refine ⟨ht.now.frame (fun x hx => modify_ne ?_) (by simp), ht.node.mod hf, by rw [hp]; exact ht.apart, by rw [hp]; exact ht.fresh⟩
  rintro rfl
  rcases hx with hx | hx
  · exact ht.apart _ (ptr_mem d) hx
  · have := ht.fresh _ (ptr_mem d); omega

theorem ptrs_split {t : PTree} : t.ptrs = t.ptr :: ptrsL t.down := by cases t; rfl

theorem nodup_down {t : PTree} (hn : t.ptrs.Nodup) : t.ptr ∉ ptrsL t.down := by
  rw [ptrs_split, List.nodup_cons] at hn; exact hn.1

/-- The node at the end of a path gets other children: some of its own, and the new node. -/
theorem Two.kids {g : Node → Node} {ds : List PTree} {f : NodeRec → NodeRec} (ht : Two h0 t0 up h t (some u.ptr) d) (hw : t.walk path = some u)
    (hf : ∀ v, f ⟨u.label, u.value, v, u.down.map PTree.ptr⟩ = ⟨u.label, u.value, v, ds.map PTree.ptr⟩)
    (hds : ∀ e ∈ ds, e ∈ u.down ∨ e = d) (hn : (ptrsL ds).Nodup) (hg : u.erase.setDown (ds.map PTree.erase) = g u.erase) :
    Now h0 t0 up (h.modify u.ptr f) (t.put u.ptr (.mk u.ptr u.label u.value ds)) ∧
      (t.put u.ptr (.mk u.ptr u.label u.value ds)).erase = t.erase.updAt g path ∧
      (t.put u.ptr (.mk u.ptr u.label u.value ds)).walk path = some (.mk u.ptr u.label u.value ds) := by
  have hsub := walk_sub hw
  have hne := ht.ne hsub
  have hund := hsub.nodup ht.now.mem.nodup
  have hud : u.ptr ∉ d.ptrs := fun hx => ht.apart _ hx (hsub.mem _ (ptr_mem u))
  have hpd : ∀ x ∈ ptrsL ds, x ∈ ptrsL u.down ∨ x ∈ d.ptrs := fun x hx => by
    obtain ⟨e, he, hx⟩ := mem_ptrsL.1 hx
    rcases hds e he with h | rfl
    · exact .inl (mem_ptrsL.2 ⟨e, h, hx⟩)
    · exact .inr hx
  have key := ht.now.change (h' := h.modify u.ptr f) (u' := .mk u.ptr u.label u.value ds) (g := g) hw rfl
    (fun v hv => ⟨by rw [modify_at hv.cell, hf], hereL_iff.2 fun e he => ?_⟩)
    (by
      rw [PTree.ptrs, List.nodup_cons]
      exact ⟨fun hx => (hpd _ hx).elim (nodup_down hund) hud, hn⟩)
    (fun x hx => ?_) (fun x hx _ => modify_ne fun e => hx (by rw [← e]; exact ptr_mem u)) (by simp) ?_
  · refine ⟨key.1, key.2, ?_⟩
    have := walk_put (s' := .mk u.ptr u.label u.value ds) ht.now.mem.nodup hw .refl fun _ => rfl
    rwa [put_self] at this
  · rcases hds e he with h | rfl
    · refine (hv.kids e h).frame fun x hx => modify_ne ?_
      rintro rfl
      exact nodup_down hund (mem_ptrsL.2 ⟨e, h, hx⟩)
    · refine ht.node.here.frame fun x hx => modify_ne ?_
      rintro rfl
      exact hud hx
  · rw [PTree.ptrs, List.mem_cons] at hx
    rcases hx with rfl | hx
    · exact .inl (ptr_mem u)
    · rcases hpd x hx with h | h
      · exact .inl (by rw [ptrs_split]; exact List.mem_cons_of_mem _ h)
      · exact .inr ⟨ht.apart x h, ht.fresh x h⟩
  · rw [← hg]
    cases u
    simp [PTree.erase, PTree.label, PTree.value, Node.setDown, eraseL_map]

/-- The new node is appended to the children. -/
theorem Two.add (ht : Two h0 t0 up h t (some u.ptr) d) (hw : t.walk path = some u) :
    Now h0 t0 up (h.addDown u.ptr d.ptr) (t.put u.ptr (u.addKid d)) ∧ (t.put u.ptr (u.addKid d)).erase = t.erase.updAt (·.addChild d.erase) path ∧
      (t.put u.ptr (u.addKid d)).walk path = some (u.addKid d) := by
  have hsub := walk_sub hw
  refine ht.kids (g := (·.addChild d.erase)) hw (fun v => by simp) (fun e he => ?_) ?_ ?_
  · rcases List.mem_append.1 he with h | h
    · exact .inl h
    · exact .inr (List.mem_singleton.1 h)
  · rw [ptrsL_append, List.nodup_append]
    have hn := hsub.nodup ht.now.mem.nodup
    rw [ptrs_split, List.nodup_cons] at hn
    refine ⟨hn.2, by simpa [ptrsL] using ht.node.nodup, fun x hx y hy e => ?_⟩
    subst e
    exact ht.apart x (by simpa [ptrsL] using hy) (hsub.mem x (by rw [ptrs_split]; exact List.mem_cons_of_mem _ hx))
  · rw [Node.addChild, erase_down, List.map_append]; rfl

/-- `attach`. -/
theorem Two.attach' (ht : Two h0 t0 up h t upd d) (hw : t.walk path = some u) :
    Now h0 t0 up (h.attach u.ptr d.ptr) (t.put u.ptr (u.addKid d)) ∧
    (t.put u.ptr (u.addKid d)).erase = t.erase.updAt (·.addChild d.erase) path ∧ (t.put u.ptr (u.addKid d)).walk path = some (u.addKid d) ∧
    (h.attach u.ptr d.ptr)[d.ptr]?.bind NodeRec.up = some u.ptr := by
  have hne := ht.ne (walk_sub hw)
  have h1 : h.attach u.ptr d.ptr = (h.setUp d.ptr (some u.ptr)).addDown u.ptr d.ptr := ptr_modify_comm hne.symm
  have h2 := ht.mod (f := fun r => { r with up := some u.ptr }) (l := d.label) (v := d.value) rfl
  rw [← PTree.eta] at h2
  obtain ⟨a, b, c⟩ := h2.add hw
  rw [h1]
  refine ⟨a, b, c, ?_⟩
  unfold NHeap.addDown
  rw [modify_ne hne.symm, show (h.setUp d.ptr (some u.ptr))[d.ptr]? = _ from h2.node.here.cell]
  rfl

theorem Two.attach (ht : Two h0 t0 up h t upd d) (hw : t.walk path = some u) : ∃ t', Now h0 t0 up (h.attach u.ptr d.ptr) t' ∧
    t'.erase = t.erase.updAt (·.addChild d.erase) path ∧ (∃ u', t'.walk path = some u' ∧ u'.ptr = u.ptr) ∧
    (h.attach u.ptr d.ptr)[d.ptr]?.bind NodeRec.up = some u.ptr :=
  have ⟨a, b, c, e⟩ := ht.attach' hw
  ⟨_, a, b, ⟨_, c, rfl⟩, e⟩

/-! ### New nodes -/

theorem create_two (ht : InMem h up t) : Two h t up (createNode h none).1 t none (.mk h.length [] [] []) := by
  have hx : ∀ x, x ∈ t.ptrs ∨ x < h.length → x < h.length := fun x hx => hx.elim (ht.here.lt x) id
  refine ⟨(Now.start ht).frame (fun x h' => List.getElem?_append_left (hx x h')) (by simp [createNode, NHeap.new]),
    ⟨⟨by simp [createNode, NHeap.new], trivial⟩, by simp [PTree.ptrs, ptrsL]⟩, ?_, by simp [PTree.ptrs, ptrsL]⟩
  intro x hx' hxt
  have := ht.here.lt x hxt
  simp [PTree.ptrs, ptrsL] at hx'
  omega

/-- A new node that is parsed into. -/
theorem parse_two (newVal : Bytes) (ht : InMem h up t) :
    match pCoreP newVal h.length (createNode h none).1, pCore newVal (.mk [] [] []) with
    | some h', .ok n => ∃ d, Two h t up h' t none d ∧ d.ptr = h.length ∧ d.erase = n
    | none, .panic => True
    | _, _ => False := by
  have h2 := create_two ht
  have := pCore_rel newVal h2.node.here.1
  revert this
  cases pCoreP newVal h.length (createNode h none).1 with
  | none => cases pCore newVal (.mk [] [] []) <;> exact fun h => h
  | some h' =>
    cases pCore newVal (.mk [] [] []) with
    | err e => exact fun h => h
    | panic => exact fun h => h
    | ok n =>
      rintro ⟨d, h1, hh, hn, he, hfr, hf, hg⟩
      have hlen : (createNode h none).1.length = h.length + 1 := by simp [createNode, NHeap.new]
      have hfr' : ∀ x ∈ d.ptrs, h.length ≤ x := fun x hx => (hfr x hx).elim (fun e => by omega) fun e => by omega
      have hlt : ∀ x, x ∈ t.ptrs ∨ x < h.length → x < h.length := fun x hx => hx.elim (ht.here.lt x) id
      refine ⟨d, ⟨h2.now.frame (fun x hx => hf x ?_ ?_) hg, ⟨hh, hn⟩, fun x hx hxt => ?_, hfr'⟩, h1, he⟩
      · have := hlt x hx; omega
      · have := hlt x hx; omega
      · have := ht.here.lt x hxt; have := hfr' x hx; omega

theorem newNode_two {c : Bool} {label newVal : Bytes} (ht : InMem h up t) :
    match newNodeP h c label newVal,
      (if c then (pCore newVal (.mk [] [] [])).map fun n => (n.setLabel label).setValue newVal else Out.ok (.mk label newVal [])) with
    | some (h', q), .ok n => ∃ d, Two h t up h' t none d ∧ d.ptr = q ∧ d.erase = n
    | none, .panic => True
    | _, _ => False := by
  have hset : ∀ {h' : NHeap} {d : PTree}, Two h t up h' t none d → Two h t up ((h'.setLabel d.ptr label).setValue d.ptr newVal) t none (.mk d.ptr label newVal d.down) := by
    intro h' d hd
    have h1 := hd.mod (f := fun r => { r with label := label }) (l := label) (v := d.value) rfl
    exact h1.mod (f := fun r => { r with value := newVal }) (l := label) (v := newVal) rfl
  unfold newNodeP
  cases c with
  | true =>
    have := parse_two newVal ht
    simp only [if_true]
    revert this
    rw [show (createNode h none).2 = h.length from rfl]
    cases pCoreP newVal h.length (createNode h none).1 with
    | none => cases pCore newVal (.mk [] [] []) <;> exact fun h => h
    | some h' =>
      cases pCore newVal (.mk [] [] []) with
      | ok n =>
        rintro ⟨d, h1, h2, h3⟩
        have h4 := hset h1
        rw [h2] at h4
        refine ⟨_, h4, rfl, ?_⟩
        rw [← h3]
        cases d; rfl
      | err e => exact fun h => h
      | panic => exact fun h => h
  | false => exact ⟨_, hset (create_two ht), rfl, rfl⟩

end Jin
