import Verif.Model.ParserPtr
/-!
# Proof.PtrTree — trees in a memory of nodes

A `PTree` is a tree of nodes that knows where its nodes are; `Here h up t` says that it is in memory.
-/

namespace Jin

/-- A tree with the address of each of its nodes. -/
inductive PTree where
  | mk (ptr : Nat) (label value : Bytes) (down : List PTree)

def PTree.ptr : PTree → Nat
  | .mk p _ _ _ => p
def PTree.label : PTree → Bytes
  | .mk _ l _ _ => l
def PTree.value : PTree → Bytes
  | .mk _ _ v _ => v
def PTree.down : PTree → List PTree
  | .mk _ _ _ d => d

mutual
/-- All addresses. -/
def PTree.ptrs : PTree → List Nat
  | .mk p _ _ ds => p :: ptrsL ds
def ptrsL : List PTree → List Nat
  | [] => []
  | d :: ds => d.ptrs ++ ptrsL ds
end

mutual
/-- The tree without addresses. -/
def PTree.erase : PTree → Node
  | .mk _ l v ds => .mk l v (eraseL ds)
def eraseL : List PTree → List Node
  | [] => []
  | d :: ds => d.erase :: eraseL ds
end

mutual
/-- The tree is in memory, below a node `up`. -/
def Here (h : NHeap) (up : Option Nat) : PTree → Prop
  | .mk p l v ds => h[p]? = some ⟨l, v, up, ds.map PTree.ptr⟩ ∧ HereL h p ds
def HereL (h : NHeap) (p : Nat) : List PTree → Prop
  | [] => True
  | d :: ds => Here h (some p) d ∧ HereL h p ds
end

mutual
/-- The tree with `s` in place of the node at address `q`. -/
def PTree.put (t : PTree) (q : Nat) (s : PTree) : PTree :=
  match t with
  | .mk p l v ds => if p = q then s else .mk p l v (putL ds q s)
def putL (l : List PTree) (q : Nat) (s : PTree) : List PTree :=
  match l with
  | [] => []
  | d :: ds => d.put q s :: putL ds q s
end

mutual
/-- The tree with another value in the node at address `q`. -/
def PTree.setV (q : Nat) (x : Bytes) : PTree → PTree
  | .mk p l v ds => .mk p l (if p = q then x else v) (setVL q x ds)
def setVL (q : Nat) (x : Bytes) : List PTree → List PTree
  | [] => []
  | d :: ds => d.setV q x :: setVL q x ds
end

/-- Part of a tree. -/
inductive Sub (s : PTree) : PTree → Prop where
  | refl : Sub s s
  | kid {t d : PTree} : d ∈ t.down → Sub s d → Sub s t

/-- The node that `walk` finds. -/
def PTree.walk (t : PTree) : List Bytes → Option PTree
  | [] => some t
  | p :: ps => (t.down.find? fun d => d.label == p).bind fun d => d.walk ps

theorem eraseL_map (ds : List PTree) : eraseL ds = ds.map PTree.erase := by
  induction ds with
  | nil => rfl
  | cons d ds ih => simp [eraseL, ih]

theorem putL_map (q : Nat) (s : PTree) (ds : List PTree) : putL ds q s = ds.map fun d => d.put q s := by
  induction ds with
  | nil => rfl
  | cons d ds ih => simp [putL, ih]

theorem setVL_map (q : Nat) (x : Bytes) (ds : List PTree) : setVL q x ds = ds.map (PTree.setV q x) := by
  induction ds with
  | nil => rfl
  | cons d ds ih => simp [setVL, ih]

theorem ptrsL_flatMap (ds : List PTree) : ptrsL ds = ds.flatMap PTree.ptrs := by
  induction ds with
  | nil => rfl
  | cons d ds ih => simp [ptrsL, ih]

theorem hereL_iff {h : NHeap} {p : Nat} {ds : List PTree} : HereL h p ds ↔ ∀ d ∈ ds, Here h (some p) d := by
  induction ds with
  | nil => simp [HereL]
  | cons d ds ih => simp [HereL, ih]

theorem mem_ptrsL {x : Nat} {ds : List PTree} : x ∈ ptrsL ds ↔ ∃ d ∈ ds, x ∈ d.ptrs := by
  induction ds with
  | nil => simp [ptrsL]
  | cons d ds ih => simp [ptrsL, ih]

theorem ptr_mem (t : PTree) : t.ptr ∈ t.ptrs := by
  cases t; simp [PTree.ptr, PTree.ptrs]

theorem ptrsL_append (a b : List PTree) : ptrsL (a ++ b) = ptrsL a ++ ptrsL b := by
  induction a with
  | nil => rfl
  | cons d ds ih => simp [ptrsL, ih]

@[simp] theorem erase_label (t : PTree) : t.erase.label = t.label := by cases t; rfl
@[simp] theorem erase_value (t : PTree) : t.erase.value = t.value := by cases t; rfl
theorem erase_down (t : PTree) : t.erase.down = t.down.map PTree.erase := by
  cases t; exact eraseL_map _

theorem PTree.eta (t : PTree) : t = .mk t.ptr t.label t.value t.down := by cases t; rfl

/-- Induction over a tree and its children. -/
theorem PTree.ind {P : PTree → Prop} (H : ∀ p l v ds, (∀ d ∈ ds, P d) → P (.mk p l v ds)) : ∀ t, P t
  | .mk p l v ds => H p l v ds (indL ds)
where
  indL : ∀ ds : List PTree, ∀ d ∈ ds, P d
    | [], d, hd => by cases hd
    | e :: es, d, hd => (List.mem_cons.1 hd).elim (fun h => h ▸ PTree.ind H e) (indL es d)

variable {h h' : NHeap} {up : Option Nat} {t : PTree}

theorem Here.cell (ht : Here h up t) : h[t.ptr]? = some ⟨t.label, t.value, up, t.down.map PTree.ptr⟩ := by
  cases t; exact ht.1

theorem Here.kids (ht : Here h up t) : ∀ d ∈ t.down, Here h (some t.ptr) d := by
  cases t; exact hereL_iff.1 ht.2

theorem here_iff : Here h up t ↔ h[t.ptr]? = some ⟨t.label, t.value, up, t.down.map PTree.ptr⟩ ∧ ∀ d ∈ t.down, Here h (some t.ptr) d :=
  ⟨fun ht => ⟨ht.cell, ht.kids⟩, fun ⟨a, b⟩ => by cases t; exact ⟨a, hereL_iff.2 b⟩⟩

/-- A tree stays when none of its cells changes. -/
theorem Here.frame (ht : Here h up t) (hf : ∀ x ∈ t.ptrs, h'[x]? = h[x]?) : Here h' up t := by
  induction t using PTree.ind generalizing up with
  | H p l v ds ih =>
    refine ⟨by rw [hf p (by simp [PTree.ptrs])]; exact ht.1, hereL_iff.2 fun d hd => ?_⟩
    exact ih d hd (hereL_iff.1 ht.2 d hd) fun x hx => hf x (by simp only [PTree.ptrs, List.mem_cons]; exact .inr (mem_ptrsL.2 ⟨d, hd, hx⟩))

theorem Here.lt (ht : Here h up t) : ∀ x ∈ t.ptrs, x < h.length := by
  induction t using PTree.ind generalizing up with
  | H p l v ds ih =>
    intro x hx
    rcases List.mem_cons.1 hx with rfl | hx
    · exact (List.getElem?_eq_some_iff.1 ht.1).1
    · obtain ⟨d, hd, hx⟩ := mem_ptrsL.1 hx
      exact ih d hd (hereL_iff.1 ht.2 d hd) x hx

theorem Here.append (ht : Here h up t) (l : List NodeRec) : Here (h ++ l) up t :=
  ht.frame fun x hx => List.getElem?_append_left (ht.lt x hx)

/-! ### Addresses -/

theorem nodup_mk {p : Nat} {l v : Bytes} {ds : List PTree} :
    (PTree.mk p l v ds).ptrs.Nodup ↔ p ∉ ptrsL ds ∧ (∀ d ∈ ds, d.ptrs.Nodup) ∧ ds.Pairwise fun a b => ∀ x ∈ a.ptrs, x ∉ b.ptrs := by
  rw [PTree.ptrs, List.nodup_cons, ptrsL_flatMap]
  refine and_congr_right fun _ => ?_
  unfold List.Nodup
  rw [List.pairwise_flatMap]
  refine and_congr_right fun _ => ?_
  constructor
  · exact fun h => h.imp fun hab x hx hx' => hab x hx x hx' rfl
  · exact fun h => h.imp fun hab x hx y hy e => hab x hx (by rw [show x = y from e]; exact hy)

theorem nodup_cases {p : Nat} {l v : Bytes} {ds : List PTree} (hn : (PTree.mk p l v ds).ptrs.Nodup) {d e : PTree} (hd : d ∈ ds) (he : e ∈ ds)
    {x : Nat} (hx : x ∈ d.ptrs) (hx' : x ∈ e.ptrs) : d = e := by
  have hp := (nodup_mk.1 hn).2.2
  clear hn
  induction ds with
  | nil => cases hd
  | cons a as ih =>
    rw [List.pairwise_cons] at hp
    rcases List.mem_cons.1 hd with hda | hda <;> rcases List.mem_cons.1 he with hea | hea
    · rw [hda, hea]
    · exact absurd hx' (hp.1 e hea x (hda ▸ hx))
    · exact absurd hx (hp.1 d hda x (hea ▸ hx'))
    · exact ih hda hea hp.2

variable {s s' u : PTree} {q : Nat}

theorem Sub.mem (hs : Sub s t) : ∀ x ∈ s.ptrs, x ∈ t.ptrs := by
  induction hs with
  | refl => exact fun _ h => h
  | @kid t d hd _ ih =>
    intro x hx
    rw [t.eta, PTree.ptrs, List.mem_cons]
    exact .inr (mem_ptrsL.2 ⟨d, hd, ih x hx⟩)

theorem Sub.nodup (hs : Sub s t) (hn : t.ptrs.Nodup) : s.ptrs.Nodup := by
  induction hs with
  | refl => exact hn
  | @kid t d hd _ ih => rw [t.eta] at hn; exact ih ((nodup_mk.1 hn).2.1 d hd)

theorem Sub.here (hs : Sub s t) (ht : Here h up t) : ∃ v, Here h v s := by
  induction hs generalizing up with
  | refl => exact ⟨up, ht⟩
  | kid hd _ ih => exact ih (ht.kids _ hd)

theorem Sub.trans (h1 : Sub s t) (h2 : Sub t u) : Sub s u := by
  induction h2 with
  | refl => exact h1
  | kid hd _ ih => exact .kid hd ih

theorem put_not_mem (hq : q ∉ t.ptrs) : t.put q s = t := by
  induction t using PTree.ind with
  | H p l v ds ih =>
    simp only [PTree.ptrs, List.mem_cons, not_or] at hq
    rw [PTree.put, if_neg (fun e => hq.1 e.symm), putL_map]
    have : ds.map (fun d => d.put q s) = ds.map id :=
      List.map_congr_left fun d hd => ih d hd fun hx => hq.2 (mem_ptrsL.2 ⟨d, hd, hx⟩)
    rw [this, List.map_id]

theorem put_self : t.put t.ptr s = s := by
  cases t; simp [PTree.put, PTree.ptr]

theorem put_ptr (hp : s.ptr = q) : (t.put q s).ptr = t.ptr := by
  cases t with
  | mk p l v ds =>
    rw [PTree.put]
    split
    · next e => rw [hp, ← e]; rfl
    · rfl

theorem mem_put {x : Nat} (hx : x ∈ (t.put q s).ptrs) : x ∈ t.ptrs ∨ x ∈ s.ptrs ∧ q ∈ t.ptrs := by
  induction t using PTree.ind with
  | H p l v ds ih =>
    rw [PTree.put] at hx
    split at hx
    · next e => exact .inr ⟨hx, by rw [← e]; simp [PTree.ptrs]⟩
    · rw [PTree.ptrs, List.mem_cons, putL_map] at hx
      rcases hx with rfl | hx
      · exact .inl (by simp [PTree.ptrs])
      · obtain ⟨d', hd', hx⟩ := mem_ptrsL.1 hx
        obtain ⟨d, hd, rfl⟩ := List.mem_map.1 hd'
        rcases ih d hd hx with h | ⟨h1, h2⟩
        · exact .inl (by rw [PTree.ptrs, List.mem_cons]; exact .inr (mem_ptrsL.2 ⟨d, hd, h⟩))
        · exact .inr ⟨h1, by rw [PTree.ptrs, List.mem_cons]; exact .inr (mem_ptrsL.2 ⟨d, hd, h2⟩)⟩

/-- A part of a tree at an address is the part. -/
theorem Sub.unique (hs : Sub s t) (hu : Sub u t) (hn : t.ptrs.Nodup) (hp : u.ptr = s.ptr) : u = s := by
  induction hs with
  | refl =>
    cases hu with
    | refl => rfl
    | @kid _ d hd hu =>
      rw [s.eta] at hn
      exact absurd (mem_ptrsL.2 ⟨d, hd, hu.mem _ (by rw [← hp]; exact ptr_mem _)⟩) (nodup_mk.1 hn).1
  | @kid t d hd hs ih =>
    rw [t.eta] at hn
    cases hu with
    | refl => exact absurd (mem_ptrsL.2 ⟨d, hd, hs.mem _ (by rw [hp]; exact ptr_mem _)⟩) (nodup_mk.1 hn).1
    | @kid _ e he hu =>
      have : e = d := nodup_cases hn he hd (hu.mem _ (ptr_mem _)) (by rw [hp]; exact hs.mem _ (ptr_mem _))
      subst this
      exact ih hu ((nodup_mk.1 hn).2.1 e he)

/-- Parts of each other are equal. -/
theorem Sub.unique' (hs : Sub s t) (hu : Sub t s) (hn : t.ptrs.Nodup) : s = t :=
  (Sub.refl (s := t)).unique hs hn (by
    cases hs with
    | refl => rfl
    | @kid _ d hd hs =>
      rw [t.eta] at hn
      exact absurd (mem_ptrsL.2 ⟨d, hd, hs.mem _ (hu.mem _ (ptr_mem t))⟩) (nodup_mk.1 hn).1)

/-- The rest of the tree stays when one part is replaced. -/
theorem Here.put (ht : Here h up t) (hn : t.ptrs.Nodup) (hs : Sub s t) (hp : s'.ptr = s.ptr)
    (hf : ∀ v, Here h v s → Here h' v s') (hfr : ∀ x ∈ t.ptrs, x ∉ s.ptrs → h'[x]? = h[x]?) : Here h' up (t.put s.ptr s') := by
  induction hs generalizing up with
  | refl => rw [put_self]; exact hf _ ht
  | @kid t d hd hs ih =>
    have hqd := hs.mem _ (ptr_mem s)
    obtain ⟨p, l, v, ds⟩ := t
    have hd : d ∈ ds := hd
    have hpn := (nodup_mk.1 hn).1
    have hne : p ≠ s.ptr := fun e => hpn (by rw [e]; exact mem_ptrsL.2 ⟨d, hd, hqd⟩)
    rw [PTree.put, if_neg hne, putL_map]
    refine ⟨?_, hereL_iff.2 fun e' he' => ?_⟩
    · rw [hfr p (by simp [PTree.ptrs]) fun hx => hpn (mem_ptrsL.2 ⟨d, hd, hs.mem _ hx⟩), ht.1, List.map_map]
      congr 2
      exact List.map_congr_left fun e _ => (put_ptr hp).symm
    · obtain ⟨e, he, rfl⟩ := List.mem_map.1 he'
      have hup : ∀ x ∈ e.ptrs, x ∈ (PTree.mk p l v ds).ptrs := fun x hx => by
        rw [PTree.ptrs, List.mem_cons]; exact .inr (mem_ptrsL.2 ⟨e, he, hx⟩)
      by_cases hq : s.ptr ∈ e.ptrs
      · have : e = d := nodup_cases hn he hd hq hqd
        subst this
        exact ih (hereL_iff.1 ht.2 e he) ((nodup_mk.1 hn).2.1 e he) fun x hx => hfr x (hup x hx)
      · rw [put_not_mem hq]
        refine (hereL_iff.1 ht.2 e he).frame fun x hx => hfr x (hup x hx) fun hxs => hq ?_
        have : e = d := nodup_cases hn he hd hx (hs.mem _ hxs)
        rw [this]; exact hqd

theorem nodup_put (hn : t.ptrs.Nodup) (hs : Sub s t) (hn' : s'.ptrs.Nodup) (hfr : ∀ x ∈ s'.ptrs, x ∈ s.ptrs ∨ x ∉ t.ptrs) :
    (t.put s.ptr s').ptrs.Nodup := by
  induction hs with
  | refl => rw [put_self]; exact hn'
  | @kid t d hd hs ih =>
    have hqd := hs.mem _ (ptr_mem s)
    obtain ⟨p, l, v, ds⟩ := t
    have hd : d ∈ ds := hd
    obtain ⟨hpn, hnd, hpw⟩ := nodup_mk.1 hn
    have hne : p ≠ s.ptr := fun e => hpn (by rw [e]; exact mem_ptrsL.2 ⟨d, hd, hqd⟩)
    have hup : ∀ e ∈ ds, ∀ x ∈ e.ptrs, x ∈ (PTree.mk p l v ds).ptrs := fun e he x hx => by
      rw [PTree.ptrs, List.mem_cons]; exact .inr (mem_ptrsL.2 ⟨e, he, hx⟩)
    have hsub : ∀ e ∈ ds, s.ptr ∈ e.ptrs → e = d := fun e he hq => nodup_cases hn he hd hq hqd
    rw [PTree.put, if_neg hne, putL_map]
    refine nodup_mk.2 ⟨?_, ?_, ?_⟩
    · intro hx
      obtain ⟨e', he', hx⟩ := mem_ptrsL.1 hx
      obtain ⟨e, he, rfl⟩ := List.mem_map.1 he'
      rcases mem_put hx with h | ⟨h, -⟩
      · exact hpn (mem_ptrsL.2 ⟨e, he, h⟩)
      · rcases hfr p h with h | h
        · exact hpn (mem_ptrsL.2 ⟨d, hd, hs.mem _ h⟩)
        · exact h (by simp [PTree.ptrs])
    · intro e' he'
      obtain ⟨e, he, rfl⟩ := List.mem_map.1 he'
      by_cases hq : s.ptr ∈ e.ptrs
      · have := hsub e he hq
        subst this
        exact ih (hnd e he) fun x hx => (hfr x hx).imp id fun h h' => h (hup e he x h')
      · rw [put_not_mem hq]; exact hnd e he
    · rw [List.pairwise_map]
      refine hpw.imp_of_mem fun {a b} ha hb hab x hxa hxb => ?_
      rcases mem_put hxa with h1 | ⟨h1, q1⟩ <;> rcases mem_put hxb with h2 | ⟨h2, q2⟩
      · exact hab x h1 h2
      · have := hsub b hb q2
        subst this
        rcases hfr x h2 with h | h
        · exact hab x h1 (hs.mem _ h)
        · exact h (hup a ha x h1)
      · have := hsub a ha q1
        subst this
        rcases hfr x h1 with h | h
        · exact hab x (hs.mem _ h) h2
        · exact h (hup b hb x h2)
      · exact hab _ q1 q2

/-! ### Values -/

theorem setV_ptr {x : Bytes} : (t.setV q x).ptr = t.ptr := by cases t; rfl
theorem setV_label {x : Bytes} : (t.setV q x).label = t.label := by cases t; rfl
theorem setV_down {x : Bytes} : (t.setV q x).down = t.down.map (PTree.setV q x) := by cases t; exact setVL_map _ _ _

theorem setV_ptrs {x : Bytes} : (t.setV q x).ptrs = t.ptrs := by
  induction t using PTree.ind with
  | H p l v ds ih =>
    rw [PTree.setV, PTree.ptrs, PTree.ptrs, setVL_map]
    congr 1
    induction ds with
    | nil => rfl
    | cons d ds ihd =>
      rw [List.map_cons, ptrsL, ptrsL, ih d List.mem_cons_self, ihd fun e he => ih e (List.mem_cons_of_mem _ he)]

theorem Here.setV (ht : Here h up t) (x : Bytes) : Here (h.setValue q x) up (t.setV q x) := by
  induction t using PTree.ind generalizing up with
  | H p l v ds ih =>
    rw [PTree.setV, setVL_map]
    refine ⟨?_, hereL_iff.2 fun d' hd' => ?_⟩
    · unfold NHeap.setValue
      rw [List.getElem?_modify, ht.1, List.map_map]
      have : (PTree.ptr ∘ PTree.setV q x) = PTree.ptr := funext fun d => setV_ptr
      rw [this]
      by_cases e : q = p
      · simp [e]
      · simp [e, Ne.symm e]
    · obtain ⟨d, hd, rfl⟩ := List.mem_map.1 hd'
      exact ih d hd (hereL_iff.1 ht.2 d hd)

/-! ### Walks -/

theorem find_map {α β : Type} (f : α → β) (p : β → Bool) (l : List α) : (l.map f).find? p = (l.find? (p ∘ f)).map f := List.find?_map

theorem walk_sub {path : List Bytes} (hw : t.walk path = some s) : Sub s t := by
  induction path generalizing t with
  | nil => cases hw; exact .refl
  | cons p ps ih =>
    rw [PTree.walk] at hw
    obtain ⟨d, hd, hw⟩ := Option.bind_eq_some_iff.1 hw
    exact .kid (List.mem_of_find?_eq_some hd) (ih hw)

theorem ptr_walk_snoc {path : List Bytes} {x : Bytes} : t.walk (path ++ [x]) = (t.walk path).bind fun u => u.down.find? fun d => d.label == x := by
  induction path generalizing t with
  | nil =>
    simp only [List.nil_append, PTree.walk, Option.bind_some]
    cases t.down.find? (fun d => d.label == x) <;> rfl
  | cons p ps ih =>
    rw [List.cons_append, PTree.walk, PTree.walk, Option.bind_assoc]
    exact Option.bind_congr fun d _ => ih

theorem find_congr {α : Type} {p q : α → Bool} {l : List α} (hpq : ∀ x ∈ l, p x = q x) : l.find? p = l.find? q := by
  induction l with
  | nil => rfl
  | cons a l ih => rw [List.find?_cons, List.find?_cons, hpq a List.mem_cons_self, ih fun x hx => hpq x (List.mem_cons_of_mem _ hx)]

theorem child_find (ht : ∀ d ∈ s.down, Here h (some s.ptr) d) (p : Bytes) :
    h.child? p (s.down.map PTree.ptr) = (s.down.find? fun d => d.label == p).map PTree.ptr := by
  unfold NHeap.child?
  rw [find_map]
  congr 1
  apply find_congr
  intro d hd
  simp only [Function.comp, (ht d hd).cell]

theorem walk_rel {path : List Bytes} (ht : Here h up t) :
    match t.walk path with
    | some s => h.walk t.ptr path = .ok s.ptr ∧ t.erase.walk path = .ok s.erase
    | none => ∃ e, h.walk t.ptr path = .err e ∧ t.erase.walk path = .err e := by
  induction path generalizing t up with
  | nil => exact ⟨rfl, rfl⟩
  | cons p ps ih =>
    rw [PTree.walk, NHeap.walk, Node.walk, ht.cell, erase_down, find_map]
    simp only [child_find ht.kids]
    have e : ((fun d : Node => d.label == p) ∘ PTree.erase) = fun d => d.label == p := by funext d; simp
    rw [e]
    cases hf : t.down.find? fun d => d.label == p with
    | none => exact ⟨_, rfl, rfl⟩
    | some d => exact ih (ht.kids d (List.mem_of_find?_eq_some hf))

theorem setV_walk {path : List Bytes} {x : Bytes} : (t.setV q x).walk path = (t.walk path).map (PTree.setV q x) := by
  induction path generalizing t with
  | nil => rfl
  | cons p ps ih =>
    rw [PTree.walk, PTree.walk, setV_down, find_map]
    have e : ((fun d : PTree => d.label == p) ∘ PTree.setV q x) = fun d => d.label == p := by funext d; simp [setV_label]
    rw [e]
    cases t.down.find? fun d => d.label == p with
    | none => rfl
    | some d => exact ih

theorem replaceFirst_map {f : PTree → PTree} {g : Node → Node} {p : Bytes} {ds : List PTree} {d : PTree}
    (hf : ds.find? (fun d => d.label == p) = some d) (h1 : (f d).erase = g d.erase) (h2 : ∀ e ∈ ds, e ≠ d → f e = e) (h3 : ds.Pairwise (· ≠ ·)) :
    (ds.map f).map PTree.erase = replaceFirst (fun d => d.label == p) g (ds.map PTree.erase) := by
  induction ds with
  | nil => cases hf
  | cons e es ih =>
    rw [List.pairwise_cons] at h3
    simp only [List.map_cons, replaceFirst, erase_label]
    rw [List.find?_cons] at hf
    split at hf
    · next hl =>
      cases hf
      rw [hl, if_pos rfl, h1]
      congr 1
      have : es.map f = es.map id := List.map_congr_left fun x hx => h2 x (List.mem_cons_of_mem _ hx) (fun e => h3.1 x hx e.symm)
      rw [this, List.map_id]
    · next hl =>
      rw [hl, if_neg (by simp), ih hf (fun x hx => h2 x (List.mem_cons_of_mem _ hx)) h3.2, h2 e List.mem_cons_self]
      intro he
      subst he
      exact h3.1 e (List.mem_of_find?_eq_some hf) rfl

theorem nodup_distinct {p : Nat} {l v : Bytes} {ds : List PTree} (hn : (PTree.mk p l v ds).ptrs.Nodup) : ds.Pairwise (· ≠ ·) :=
  (nodup_mk.1 hn).2.2.imp fun {a b} hab e => hab a.ptr (ptr_mem a) (by rw [← show a = b from e]; exact ptr_mem a)

/-- Replacing the part at the end of a path is updating the tree there. -/
theorem put_erase {path : List Bytes} {g : Node → Node} (hn : t.ptrs.Nodup) (hw : t.walk path = some s) (hg : s'.erase = g s.erase) :
    (t.put s.ptr s').erase = t.erase.updAt g path := by
  induction path generalizing t with
  | nil => cases hw; rw [put_self, Node.updAt, hg]
  | cons p ps ih =>
    rw [PTree.walk] at hw
    obtain ⟨d, hd, hw'⟩ := Option.bind_eq_some_iff.1 hw
    have hs := walk_sub hw'
    have hqd := hs.mem _ (ptr_mem s)
    obtain ⟨p0, l, v, ds⟩ := t
    have hdm : d ∈ ds := List.mem_of_find?_eq_some hd
    have hne : p0 ≠ s.ptr := fun e => (nodup_mk.1 hn).1 (by rw [e]; exact mem_ptrsL.2 ⟨d, hdm, hqd⟩)
    rw [PTree.put, if_neg hne, putL_map, PTree.erase, PTree.erase, Node.updAt, eraseL_map, eraseL_map]
    simp only [Node.setDown, Node.down]
    congr 1
    refine replaceFirst_map hd (ih ((nodup_mk.1 hn).2.1 d hdm) hw') ?_ (nodup_distinct hn)
    intro e he hed
    exact put_not_mem fun hq => hed (nodup_cases hn he hdm hq hqd)

theorem setV_not_mem {x : Bytes} (hq : q ∉ t.ptrs) : t.setV q x = t := by
  induction t using PTree.ind with
  | H p l v ds ih =>
    simp only [PTree.ptrs, List.mem_cons, not_or] at hq
    rw [PTree.setV, if_neg (fun e => hq.1 e.symm), setVL_map]
    have : ds.map (PTree.setV q x) = ds.map id :=
      List.map_congr_left fun d hd => ih d hd fun hx => hq.2 (mem_ptrsL.2 ⟨d, hd, hx⟩)
    rw [this, List.map_id]

theorem setV_put {x : Bytes} (hn : t.ptrs.Nodup) (hs : Sub s t) : t.setV s.ptr x = t.put s.ptr (.mk s.ptr s.label x s.down) := by
  induction hs with
  | refl =>
    rw [put_self]
    obtain ⟨p, l, v, ds⟩ := s
    simp only [PTree.setV, PTree.ptr, PTree.label, PTree.down, if_true, setVL_map]
    have : ds.map (PTree.setV p x) = ds.map id :=
      List.map_congr_left fun d hd => setV_not_mem fun hx => (nodup_mk.1 hn).1 (mem_ptrsL.2 ⟨d, hd, hx⟩)
    rw [this, List.map_id]
  | @kid t d hd hs ih =>
    have hqd := hs.mem _ (ptr_mem s)
    obtain ⟨p0, l, v, ds⟩ := t
    have hdm : d ∈ ds := hd
    have hne : p0 ≠ s.ptr := fun e => (nodup_mk.1 hn).1 (by rw [e]; exact mem_ptrsL.2 ⟨d, hdm, hqd⟩)
    rw [PTree.put, if_neg hne, PTree.setV, if_neg hne, putL_map, setVL_map]
    congr 1
    refine List.map_congr_left fun e he => ?_
    by_cases hq : s.ptr ∈ e.ptrs
    · have := nodup_cases hn he hdm hq hqd
      subst this
      exact ih ((nodup_mk.1 hn).2.1 e he)
    · rw [put_not_mem hq, setV_not_mem hq]

theorem setV_erase {path : List Bytes} {x : Bytes} {g : Node → Node} (hn : t.ptrs.Nodup) (hw : t.walk path = some s) (hg : s.erase.setValue x = g s.erase) :
    (t.setV s.ptr x).erase = t.erase.updAt g path := by
  rw [setV_put hn (walk_sub hw)]
  refine put_erase hn hw ?_
  rw [← hg]
  cases s; rfl

/-- A walk to a part that is replaced. -/
theorem walk_put {path : List Bytes} (hn : t.ptrs.Nodup) (hw : t.walk path = some u) (hs : Sub s u) (hl : u.ptr = s.ptr → s'.label = s.label) :
    (t.put s.ptr s').walk path = some (u.put s.ptr s') := by
  induction path generalizing t with
  | nil => cases hw; rfl
  | cons p ps ih =>
    rw [PTree.walk] at hw
    obtain ⟨d, hd, hw'⟩ := Option.bind_eq_some_iff.1 hw
    have hsd := hs.trans (walk_sub hw')
    have hqd := hsd.mem _ (ptr_mem s)
    obtain ⟨p0, l, v, ds⟩ := t
    have hdm : d ∈ ds := List.mem_of_find?_eq_some hd
    have hne : p0 ≠ s.ptr := fun e => (nodup_mk.1 hn).1 (by rw [e]; exact mem_ptrsL.2 ⟨d, hdm, hqd⟩)
    rw [PTree.put, if_neg hne, putL_map, PTree.walk]
    simp only [PTree.down]
    rw [find_map]
    have : ds.find? ((fun d : PTree => d.label == p) ∘ fun d => d.put s.ptr s') = ds.find? fun d => d.label == p := by
      apply find_congr
      intro e he
      simp only [Function.comp]
      by_cases hes : e.ptr = s.ptr
      · have : e = s := Sub.unique (t := .mk p0 l v ds) (.kid hdm hsd) (.kid he .refl) hn hes
        subst this
        have hed : e = d := nodup_cases hn he hdm (ptr_mem e) hqd
        subst hed
        have hue : u = e := (walk_sub hw').unique' hs ((nodup_mk.1 hn).2.1 e he)
        rw [put_self, hl (by rw [hue])]
      · obtain ⟨ep, el, ev, eds⟩ := e
        rw [PTree.put, if_neg (show ¬ ep = s.ptr from hes)]; rfl
    rw [this, show ds.find? (fun d => d.label == p) = some d from hd]
    exact ih ((nodup_mk.1 hn).2.1 d hdm) hw'

end Jin
