import Verif.Proof.PtrNode
/-!
# Proof.PtrOps — `Get`, `Set`, `SetKey`, `Delete`, `AddKeyValue`, `Add` of `Parser` on pointers and on trees
-/

namespace Jin

variable {h h' h1 h2 h0 : NHeap} {up upd : Option Nat} {t t0 t' s s' u u' d : PTree} {q : Nat} {path : List Bytes} {p : ParserP} {P : Parser}

theorem ptr_updAt_snoc (f : Node → Node) (x : Bytes) : ∀ (pre : List Bytes) (n : Node),
    n.updAt f (pre ++ [x]) = n.updAt (fun u => u.setDown (replaceFirst (fun d => d.label == x) f u.down)) pre
  | [], n => rfl
  | y :: pre, n => by
    rw [List.cons_append, Node.updAt, Node.updAt]
    congr 2
    funext d
    exact ptr_updAt_snoc f x pre d

theorem replaceFirst_split {q : Node → Bool} {f : Node → Node} {n : Node} {b : List Node} (hn : q n = true) :
    ∀ {a : List Node}, (∀ e ∈ a, q e = false) → replaceFirst q f (a ++ n :: b) = a ++ f n :: b
  | [], _ => by simp [replaceFirst, hn]
  | e :: a, ha => by
    rw [List.cons_append, replaceFirst, ha e List.mem_cons_self, if_neg (by simp), replaceFirst_split hn fun e he => ha e (List.mem_cons_of_mem _ he)]
    rfl

/-- The parent of the node at the end of a path, and its place there. -/
theorem parent {x : Bytes} (ht : Here h up t) (hw : t.walk (path ++ [x]) = some s) :
    ∃ u a b, t.walk path = some u ∧ u.down = a ++ s :: b ∧ s.label = x ∧ (∀ e ∈ a, ¬ e.label = x) ∧ Here h (some u.ptr) s ∧ ∃ v, Here h v u := by
  obtain ⟨u, hu, hf, hs⟩ := walk_child ht hw
  obtain ⟨hl, a, b, hd, ha⟩ := List.find?_eq_some_iff_append.1 hf
  exact ⟨u, a, b, hu, hd, by simpa using hl, fun e he hx => by simpa [hx] using ha e he, hs, (walk_sub hu).here ht⟩

theorem snoc_cases (hp : ¬ (path.length == 0) = true) : ∃ pre x, path = pre ++ [x] ∧ path.take (path.length - 1) = pre ∧ path.dropLast = pre := by
  have hne : path ≠ [] := fun e => hp (by rw [e]; rfl)
  refine ⟨path.dropLast, path.getLast hne, (List.dropLast_concat_getLast hne).symm, ?_, rfl⟩
  rw [List.dropLast_eq_take]

theorem Now.rep (ht : Now h0 t0 up h t) (hp : p.core = t0.ptr) (json : Bytes) : Rep h { p with json := json } ⟨t.erase, json⟩ up t :=
  ⟨rfl, by rw [ht.root]; exact hp, ht.mem, rfl⟩

theorem Now.done (ht : Now h0 t0 up h t) (hp : p.core = t0.ptr) {json : Bytes} {e : Option Err} {n : Node} (hn : t.erase = n) :
    PRel h0 up t0 (.done { p with json := json } h e) (.done ⟨n, json⟩ e) := ⟨rfl, t, hn ▸ ht.rep hp json, ht.safe⟩

theorem Now.keep (ht : Now h up0 up h' t0) (hr : Rep h p P up t0) (hs : up0 = t0) {e : Option Err} : PRel h up t0 (.done p h' e) (.done P e) := by
  subst hs
  exact ⟨rfl, _, ⟨hr.json, hr.core, ht.mem, hr.erase⟩, ht.safe⟩

theorem Now.finish {json : Bytes} {m k curr : Nat} (hm : 1 ≤ m) (hk : k ≤ path.length) (hp : p.core = t0.ptr) (ht : Now h0 t0 up h t)
    (hw : t.walk (path.take k) = some u) (hup : h[curr]?.bind NodeRec.up = some u.ptr) {n : Node} (hn : t.erase = n) :
    PRel h0 up t0 (finishP p json (prefixes path m k) curr h) (finish json n (prefixes path m k)) := by
  rw [← hn]
  exact finish_sim hm hk (hp.trans ht.root.symm) ht.mem hw (fun _ => hup) ht.safe

theorem Rep.walk (hr : Rep h p P up t) (path : List Bytes) :
    (∃ s, t.walk path = some s ∧ h.walk p.core path = .ok s.ptr ∧ P.core.walk path = .ok s.erase) ∨
    (∃ e, t.walk path = none ∧ h.walk p.core path = .err e ∧ P.core.walk path = .err e) := by
  have := walk_rel (path := path) hr.holds.here
  rw [hr.core, ← hr.erase]
  cases hw : t.walk path with
  | none => rw [hw] at this; obtain ⟨e, h1, h2⟩ := this; exact .inr ⟨e, rfl, h1, h2⟩
  | some s => rw [hw] at this; exact .inl ⟨s, rfl, this.1, this.2⟩

theorem get_sim (hr : Rep h p P up t) (path : List Bytes) : p.Get h path = P.Get path := by
  unfold ParserP.Get Parser.Get
  by_cases h0 : (path.length == 0) = true
  · rw [if_pos h0, if_pos h0, hr.json]
  · rw [if_neg h0, if_neg h0]
    rcases hr.walk path with ⟨s, h1, h2, h3⟩ | ⟨e, h1, h2, h3⟩
    · obtain ⟨v, hv⟩ := (walk_sub h1).here hr.holds.here
      rw [h2, h3]
      simp only [hv.cell]
      rw [← erase_value]; rfl
    · rw [h2, h3]; rfl

/-! ### Set -/

theorem getIndex_eq {v : Option Nat} {a b : List PTree} {x : Bytes} (hu : Here h v u) (hs : Here h (some u.ptr) s) (hd : u.down = a ++ s :: b)
    (hl : s.label = x) (ha : ∀ e ∈ a, ¬ e.label = x) : h.getIndex s.ptr = some (a.length : Int) := by
  have key : (u.down.map PTree.ptr).findIdx? (fun d => match h[d]? with | some y => y.label == s.label | none => false) = some a.length := by
    rw [List.findIdx?_eq_some_iff_findIdx_eq]
    have hlen : a.length < u.down.length := by rw [hd]; simp
    refine ⟨by simpa using hlen, ?_⟩
    rw [hd, List.map_append, List.map_cons, List.findIdx_append]
    have h1 : (a.map PTree.ptr).findIdx (fun d => match h[d]? with | some y => y.label == s.label | none => false) = (a.map PTree.ptr).length := by
      rw [List.findIdx_eq_length]
      intro y hy
      obtain ⟨e, he, rfl⟩ := List.mem_map.1 hy
      have : Here h (some u.ptr) e := hu.kids e (by rw [hd]; exact List.mem_append_left _ he)
      rw [this.cell]
      simpa [hl] using ha e he
    rw [h1, if_neg (by simp), List.findIdx_cons, hs.cell]
    simp
  unfold NHeap.getIndex
  simp only [hs.cell, Option.bind_some, hu.cell]
  exact congrArg (fun o => match o with | some i => some (i : Int) | none => some (-1)) key

theorem nodup_replace {a b : List PTree} (hn : (ptrsL (a ++ s :: b)).Nodup) (hd : d.ptrs.Nodup) (hap : ∀ x ∈ d.ptrs, x ∉ ptrsL (a ++ s :: b)) :
    (ptrsL (a ++ d :: b)).Nodup := by
  rw [ptrsL_append, ptrsL] at hn hap ⊢
  rw [List.nodup_append, List.nodup_append] at hn ⊢
  obtain ⟨h1, ⟨h2, h3, h4⟩, h5⟩ := hn
  refine ⟨h1, ⟨hd, h3, fun x hx y hy e => ?_⟩, fun x hx y hy e => ?_⟩
  · subst e
    exact hap x hx (by simp [hy])
  · subst e
    rcases List.mem_append.1 hy with h | h
    · exact hap x h (by simp [hx])
    · exact h5 x hx x (by simp [h]) rfl

theorem set_sim (hr : Rep h p P up t) (newVal : Bytes) (path : List Bytes) : PRel h up t (p.Set h newVal path) (P.Set newVal path) := by
  unfold ParserP.Set Parser.Set
  by_cases h0 : (path.length == 0) = true
  · rw [if_pos h0, if_pos h0]; exact hr.same
  rw [if_neg h0, if_neg h0]
  obtain ⟨pre, x, hpx, htake, -⟩ := snoc_cases h0
  rcases hr.walk path with ⟨s, h1, h2, h3⟩ | ⟨e, h1, h2, h3⟩
  · rw [h2, h3]
    simp only
    by_cases hc : opensContainer newVal = true
    · rw [if_pos hc, if_pos hc]
      have hpt := parse_two newVal hr.holds
      rw [show (createNode h none).2 = h.length from rfl]
      revert hpt
      cases hp1 : pCoreP newVal h.length (createNode h none).1 with
      | none =>
        cases hp2 : pCore newVal (.mk [] [] []) with
        | ok n => exact fun h => h.elim
        | err e => exact fun h => h.elim
        | panic => exact fun _ => trivial
      | some h' =>
        cases hp2 : pCore newVal (.mk [] [] []) with
        | err e => exact fun h => h.elim
        | panic => exact fun h => h.elim
        | ok n =>
          rintro ⟨d, hd, hdp, hde⟩
          rw [hpx] at h1
          obtain ⟨u, a, b, hu, hdn, hl, ha, hs, v, hv⟩ := parent hd.now.mem.here h1
          simp only [hs.cell]
          have hd1 := hd.mod (f := fun r => { r with label := s.label }) (l := s.label) (v := d.value) rfl
          have hd2 := hd1.mod (f := fun r => { r with up := some u.ptr }) (upd' := some u.ptr) (l := s.label) (v := d.value) rfl
          have hd3 := hd2.mod (f := fun r => { r with value := newVal }) (l := s.label) (v := newVal) rfl
          obtain ⟨u2, a2, b2, hu2, hdn2, -, -, hs2, v2, hv2⟩ := parent hd2.now.mem.here h1
          rw [hu] at hu2
          cases hu2
          have hgi := getIndex_eq hv2 hs2 hdn hl ha
          rw [show d.ptr = h.length from hdp] at hgi hv2 hd3
          rw [show NHeap.getIndex ((h'.setLabel h.length s.label).setUp h.length (some u.ptr)) s.ptr = _ from hgi]
          simp only
          rw [show ((h'.setLabel h.length s.label).setUp h.length (some u.ptr))[u.ptr]? = _ from hv2.cell]
          simp only
          rw [if_pos ⟨by omega, by rw [hdn]; simp; omega⟩, ← hr.json]
          cases hj : (Jin.Set p.json newVal path).json? with
          | none => simp only [Out.map]; trivial
          | some json =>
            simp only [Out.map]
            have hne : h.length ≠ u.ptr := by rw [← hdp]; exact hd.ne (walk_sub hu)
            have hset : (u.down.map PTree.ptr).set a.length h.length = (a ++ PTree.mk h.length s.label newVal d.down :: b).map PTree.ptr := by
              rw [hdn]; simp [PTree.ptr]
            rw [show ((a.length : Int).toNat) = a.length from rfl, hset]
            have hcomm : NHeap.setValue (NHeap.setDown ((h'.setLabel h.length s.label).setUp h.length (some u.ptr)) u.ptr
                ((a ++ PTree.mk h.length s.label newVal d.down :: b).map PTree.ptr)) h.length newVal =
                NHeap.setDown (NHeap.setValue ((h'.setLabel h.length s.label).setUp h.length (some u.ptr)) h.length newVal) u.ptr
                ((a ++ PTree.mk h.length s.label newVal d.down :: b).map PTree.ptr) := ptr_modify_comm hne.symm
            rw [hcomm]
            have hn : u.ptrs.Nodup := (walk_sub hu).nodup hr.holds.nodup
            rw [ptrs_split, List.nodup_cons, hdn] at hn
            obtain ⟨c1, c2, c3⟩ := hd3.kids (g := fun u => u.setDown (replaceFirst (fun d => d.label == x) (fun _ => (n.setLabel s.erase.label).setValue newVal) u.down))
              (ds := a ++ PTree.mk h.length s.label newVal d.down :: b)
              (f := fun r => { r with down := (a ++ PTree.mk h.length s.label newVal d.down :: b).map PTree.ptr }) hu (fun v => rfl)
              (fun e he => by
                rw [hdn]
                simp only [List.mem_append, List.mem_cons] at he ⊢
                rcases he with h | h | h
                · exact .inl (.inl h)
                · exact .inr h
                · exact .inl (.inr (.inr h)))
              (nodup_replace hn.2 hd3.node.nodup fun y hy hy' => hd3.apart y hy ((walk_sub hu).mem y (by rw [ptrs_split, hdn]; exact List.mem_cons_of_mem _ hy')))
              (by
                rw [erase_down, hdn, List.map_append, List.map_cons, List.map_append, List.map_cons,
                  replaceFirst_split (q := fun d => d.label == x) (by simp [hl]) (fun e he => by
                    obtain ⟨e', he', rfl⟩ := List.mem_map.1 he
                    simpa using ha e' he'), ← hde]
                congr 3
                cases d; cases s; rfl)
            refine Now.finish (Nat.le_refl 1) (by omega) hr.core c1 (by rw [htake]; exact c3) ?_ (by rw [c2, hpx, ptr_updAt_snoc, hr.erase])
            rw [modify_ne hne.symm]
            exact congrArg (fun o => Option.bind o NodeRec.up) hd3.node.here.cell
    · rw [if_neg hc, if_neg hc, ← hr.json]
      cases hj : (Jin.Set p.json newVal path).json? with
      | none => trivial
      | some json =>
        simp only
        obtain ⟨c1, c2, c3⟩ := changeV (g := fun _ => s.erase.setValue newVal) (x := newVal) hr.holds h1 rfl
        rw [hpx] at h1
        obtain ⟨u, a, b, hu, hdn, hl, ha, hs, v, hv⟩ := parent hr.holds.here h1
        refine Now.finish (u := u.setV s.ptr newVal) (Nat.le_refl 1) (by omega) hr.core ⟨c1, c3, setV_ptr⟩ (by rw [htake, setV_walk, hu]; rfl) ?_ (by rw [c2, hr.erase])
        rw [setValue_at hs.cell, setV_ptr]
        rfl
  · rw [h2, h3]
    exact hr.same

/-! ### Delete -/

theorem ptrsL_sublist {a b : List PTree} (hab : a.Sublist b) : (ptrsL a).Sublist (ptrsL b) := by
  induction hab with
  | slnil => exact .refl _
  | cons d _ ih => rw [ptrsL]; exact ih.trans (List.sublist_append_right _ _)
  | cons_cons d _ ih => rw [ptrsL, ptrsL]; exact (List.Sublist.refl _).append ih

/-- The node at the end of a path keeps some of its children. -/
theorem Now.less {g : Node → Node} {ds : List PTree} {f : NodeRec → NodeRec} (ht : Now h0 t0 up h t) (hw : t.walk path = some u)
    (hf : ∀ v, f ⟨u.label, u.value, v, u.down.map PTree.ptr⟩ = ⟨u.label, u.value, v, ds.map PTree.ptr⟩)
    (hds : ds.Sublist u.down) (hg : u.erase.setDown (ds.map PTree.erase) = g u.erase) :
    Now h0 t0 up (h.modify u.ptr f) (t.put u.ptr (.mk u.ptr u.label u.value ds)) ∧
      (t.put u.ptr (.mk u.ptr u.label u.value ds)).erase = t.erase.updAt g path ∧
      (t.put u.ptr (.mk u.ptr u.label u.value ds)).walk path = some (.mk u.ptr u.label u.value ds) := by
  have hsub := walk_sub hw
  have hund := hsub.nodup ht.mem.nodup
  have hsl := ptrsL_sublist hds
  have key := ht.change (h' := h.modify u.ptr f) (u' := .mk u.ptr u.label u.value ds) (g := g) hw rfl
    (fun v hv => ⟨by rw [modify_at hv.cell, hf], hereL_iff.2 fun e he => ?_⟩)
    (by
      rw [PTree.ptrs, List.nodup_cons]
      rw [ptrs_split, List.nodup_cons] at hund
      exact ⟨fun hx => hund.1 (hsl.subset hx), hund.2.sublist hsl⟩)
    (fun x hx => ?_) (fun x hx _ => modify_ne fun e => hx (by rw [← e]; exact ptr_mem u)) (by simp) ?_
  · refine ⟨key.1, key.2, ?_⟩
    have := walk_put (s' := .mk u.ptr u.label u.value ds) ht.mem.nodup hw .refl fun _ => rfl
    rwa [put_self] at this
  · refine (hv.kids e (hds.subset he)).frame fun x hx => modify_ne ?_
    rintro rfl
    exact nodup_down hund (mem_ptrsL.2 ⟨e, hds.subset he, hx⟩)
  · rw [PTree.ptrs, List.mem_cons] at hx
    rcases hx with rfl | hx
    · exact .inl (ptr_mem u)
    · exact .inl (by rw [ptrs_split]; exact List.mem_cons_of_mem _ (hsl.subset hx))
  · rw [← hg]
    cases u
    simp [PTree.erase, PTree.label, PTree.value, Node.setDown, eraseL_map]

theorem kid_ne {x : Nat} (hn : u.ptrs.Nodup) (hx : s ∈ u.down) (hxs : x ∈ s.ptrs) : u.ptr ≠ x := fun e =>
  nodup_down hn (mem_ptrsL.2 ⟨s, hx, e ▸ hxs⟩)

theorem delete_sim (hr : Rep h p P up t) (path : List Bytes) : PRel h up t (p.Delete h path) (P.Delete path) := by
  unfold ParserP.Delete Parser.Delete
  by_cases h0 : (path.length == 0) = true
  · rw [if_pos h0, if_pos h0]; exact hr.same
  rw [if_neg h0, if_neg h0]
  obtain ⟨pre, x, hpx, htake, hdl⟩ := snoc_cases h0
  rcases hr.walk path with ⟨s, h1, h2, h3⟩ | ⟨e, h1, h2, h3⟩
  · rw [h2, h3]
    simp only
    rw [hpx] at h1
    obtain ⟨u, a, b, hu, hdn, hl, ha, hs, v, hv⟩ := parent hr.holds.here h1
    have hfil : (u.down.map PTree.ptr).filter (fun d => match h[d]? with | some y => y.label != s.label | none => false) =
        (u.down.filter fun d => d.label != s.label).map PTree.ptr := by
      rw [List.filter_map]
      congr 1
      apply List.filter_congr
      intro e he
      simp only [Function.comp, (hv.kids e he).cell]
    have hda : h.deAttach s.ptr = some (h.setDown u.ptr ((u.down.filter fun d => d.label != s.label).map PTree.ptr)) := by
      unfold NHeap.deAttach
      have hne : ((u.down.map PTree.ptr).length == 0) = false := by rw [hdn]; simp
      simp only [hs.cell, hv.cell, hne, Bool.false_eq_true, if_false]
      exact congrArg (fun l => some (h.setDown u.ptr l)) hfil
    obtain ⟨c1, c2, c3⟩ := (Now.start hr.holds).less (g := (·.deAttach s.erase.label)) (ds := u.down.filter fun d => d.label != s.label)
      (f := fun r => { r with down := (u.down.filter fun d => d.label != s.label).map PTree.ptr }) hu (fun v => rfl) List.filter_sublist
      (by
        rw [Node.deAttach, erase_down, List.filter_map]
        congr 2
        apply List.filter_congr
        intro e _
        simp)
    rw [hda, hdl, ← hr.json, ← hr.erase, ← c2]
    simp only
    cases hj : Jin.Delete p.json path with
    | panic => trivial
    | done json e =>
      cases e with
      | some e => exact c1.done hr.core rfl
      | none =>
        refine Now.finish (Nat.le_refl 1) (by omega) hr.core c1 (by rw [htake]; exact c3) ?_ rfl
        rw [modify_ne (kid_ne ((walk_sub hu).nodup hr.holds.nodup) (by rw [hdn]; simp) (ptr_mem s)), hs.cell]
        rfl
  · rw [h2, h3]
    exact hr.same

/-! ### SetKey -/

def QuietRel (h : NHeap) (up : Option Nat) (t : PTree) : Option NHeap → Out Node → Prop
  | some h', .ok n => ∃ t', t'.ptr = t.ptr ∧ InMem h' up t' ∧ t'.erase = n ∧ Safe h t h' t'
  | none, .panic => True
  | _, _ => False

theorem climbQuiet_sim {json : Bytes} : ∀ {k : Nat} {t u : PTree} {h : NHeap} {curr : Nat}, k ≤ path.length → InMem h up t →
    t.walk (path.take k) = some u → (1 ≤ k → h[curr]?.bind NodeRec.up = some u.ptr) →
    QuietRel h up t (climbQuiet json (prefixes path 1 k) curr h) (refreshQuiet json (prefixes path 1 k) t.erase)
  | 0, t, u, h, curr, _, ht, _, _ => by
    rw [ptr_prefixes_nil (by omega)]
    exact ⟨t, rfl, ht, rfl, .rfl⟩
  | k + 1, t, u, h, curr, hk, ht, hw, hup => by
    rw [prefixes_step (by omega), climbQuiet, refreshQuiet, hup (by omega)]
    simp only
    have step : ∀ v : Bytes, QuietRel h up t (climbQuiet json (prefixes path 1 k) u.ptr (h.setValue u.ptr v))
        (refreshQuiet json (prefixes path 1 k) (t.erase.updAt (·.setValue v) (path.take (k + 1)))) := by
      intro v
      obtain ⟨c1, c2, c3⟩ := changeV (g := (·.setValue v)) (x := v) ht hw rfl
      rw [← c2]
      obtain ⟨x, hx⟩ : ∃ x, path.take (k + 1) = path.take k ++ [x] := ⟨path[k], (List.take_append_getElem hk).symm⟩
      rw [hx] at hw
      obtain ⟨u0, hu0, -, hu⟩ := walk_child ht.here hw
      have := climbQuiet_sim (json := json) (k := k) (t := t.setV u.ptr v) (u := u0.setV u.ptr v) (h := h.setValue u.ptr v) (curr := u.ptr) (by omega) c1
        (by rw [setV_walk, hu0]; rfl) (fun _ => by rw [setValue_at hu.cell, setV_ptr]; rfl)
      revert this
      unfold QuietRel
      split
      · rintro ⟨t', b1, b2, b3, b4⟩
        exact ⟨t', b1.trans setV_ptr, b2, b3, c3.trans b4⟩
      · exact fun h => h
      · exact fun h => h
    cases hg : Jin.Get json (path.take (k + 1)) with
    | panic => trivial
    | err e => exact step []
    | ok v => exact step v

theorem child_any {v : Option Nat} (hu : Here h v u) (key : Bytes) : (h.child? key (u.down.map PTree.ptr)).isSome = u.erase.down.any fun d => d.label == key := by
  rw [child_find hu.kids, erase_down, Option.isSome_map, List.any_map, Bool.eq_iff_iff, List.find?_isSome, List.any_eq_true]
  simp

theorem setKey_sim (hr : Rep h p P up t) (newKey : Bytes) (path : List Bytes) : PRel h up t (p.SetKey h newKey path) (P.SetKey newKey path) := by
  unfold ParserP.SetKey Parser.SetKey
  by_cases h0 : (path.length == 0) = true
  · rw [if_pos h0, if_pos h0]; exact hr.same
  rw [if_neg h0, if_neg h0]
  by_cases hk0 : (newKey.length == 0) = true
  · rw [if_pos hk0, if_pos hk0]; exact hr.same
  rw [if_neg hk0, if_neg hk0]
  obtain ⟨pre, x, hpx, htake, hdl⟩ := snoc_cases h0
  rcases hr.walk path with ⟨s, h1, h2, h3⟩ | ⟨e, h1, h2, h3⟩
  · rw [h2, h3]
    have h1' := h1
    rw [hpx] at h1'
    obtain ⟨u, a, b, hu, hdn, hl, ha, hs, v, hv⟩ := parent hr.holds.here h1'
    have hwu : P.core.walk path.dropLast = .ok u.erase := by
      rcases hr.walk pre with ⟨u2, e1, e2, e3⟩ | ⟨e, e1, e2, e3⟩
      · rw [hu] at e1; cases e1; rw [hdl, e3]
      · rw [hu] at e1; cases e1
    rw [hwu]
    simp only [hs.cell, Option.bind_some, hv.cell]
    rw [child_any hv]
    by_cases hany : (u.erase.down.any fun d => d.label == newKey) = true
    · rw [if_pos hany, if_pos hany]; exact hr.same
    rw [if_neg hany, if_neg hany, ← hr.json]
    cases hj : (Jin.SetKey p.json newKey path).json? with
    | none => trivial
    | some json =>
      simp only
      have hsn : s.ptrs.Nodup := (walk_sub h1).nodup hr.holds.nodup
      have hmod : ∀ v, Here h v s → InMem (h.setLabel s.ptr newKey) v (.mk s.ptr newKey s.value s.down) := fun v hv =>
        InMem.mod (f := fun r => { r with label := newKey }) ⟨hv, hsn⟩ rfl
      obtain ⟨c1, c2⟩ := (Now.start hr.holds).change (h' := h.setLabel s.ptr newKey) (u' := .mk s.ptr newKey s.value s.down) (g := (·.setLabel newKey)) h1 rfl
        (fun v hv => (hmod v hv).here) (hmod _ hs).nodup
        (fun y hy => .inl (by rw [ptrs_split]; exact hy)) (fun y hy _ => modify_ne fun e => hy (by rw [← e]; exact ptr_mem s))
        (by simp [NHeap.setLabel]) (by cases s; rfl)
      have hsu : Sub s u := .kid (by rw [hdn]; simp) .refl
      have hne : u.ptr ≠ s.ptr := kid_ne ((walk_sub hu).nodup hr.holds.nodup) (by rw [hdn]; simp) (ptr_mem s)
      have hw := walk_put (s' := .mk s.ptr newKey s.value s.down) hr.holds.nodup hu hsu fun e => absurd e hne
      have := climbQuiet_sim (path := path) (json := json) (k := path.length - 1) (curr := s.ptr) (by omega) c1.mem (by rw [htake]; exact hw)
        (fun _ => by rw [(hmod _ hs).here.1, put_ptr (q := s.ptr) (s := .mk s.ptr newKey s.value s.down) rfl]; rfl)
      rw [c2, hr.erase] at this
      revert this
      cases climbQuiet json (prefixes path 1 (path.length - 1)) s.ptr (h.setLabel s.ptr newKey) with
      | none => cases refreshQuiet json (prefixes path 1 (path.length - 1)) (P.core.updAt (·.setLabel newKey) path) with
        | ok n => exact fun h => h.elim
        | err e => exact fun h => h.elim
        | panic => exact fun _ => trivial
      | some h' => cases refreshQuiet json (prefixes path 1 (path.length - 1)) (P.core.updAt (·.setLabel newKey) path) with
        | ok n =>
          rintro ⟨t', b1, b2, b3, b4⟩
          exact ⟨rfl, t', ⟨rfl, by rw [b1, c1.root]; exact hr.core, b2, b3⟩, c1.safe.trans b4⟩
        | err e => exact fun h => h.elim
        | panic => exact fun h => h.elim
  · rw [h2, h3]
    exact hr.same

/-! ### AddKeyValue, Add -/

theorem updAt_nil (f : Node → Node) (n : Node) : n.updAt f [] = f n := rfl

/-- A new member, or the panic of making it. -/
theorem member_sim {key newVal : Bytes} {C : Out Bool} {R : NHeap → Nat → Bool → PResP} {S : Node → Bool → PRes} (hr : Rep h p P up t)
    (hRS : ∀ (h' : NHeap) (d : PTree) (c : Bool), Two h t up h' t none d → PRel h up t (R h' d.ptr c) (S d.erase c)) :
    PRel h up t
      (match C with
        | .ok c =>
          match newNodeP h c key newVal with
          | none => .panic
          | some (h, q) => R h q c
        | _ => .panic)
      (match C, (match C with
          | .ok true => (pCore newVal (.mk [] [] [])).map fun n => (n.setLabel key).setValue newVal
          | .ok false => .ok (.mk key newVal [])
          | _ => .panic : Out Node) with
        | .ok c, .ok n => S n c
        | _, _ => .panic) := by
  cases C with
  | err e => trivial
  | panic => trivial
  | ok c =>
    have := newNode_two (c := c) (label := key) (newVal := newVal) hr.holds
    cases c with
    | true =>
      simp only [if_true] at this ⊢
      revert this
      cases newNodeP h true key newVal with
      | none =>
        cases (pCore newVal (.mk [] [] [])).map fun n => (n.setLabel key).setValue newVal with
        | ok n => exact fun h => h.elim
        | err e => exact fun h => h.elim
        | panic => exact fun _ => trivial
      | some x =>
        cases (pCore newVal (.mk [] [] [])).map fun n => (n.setLabel key).setValue newVal with
        | err e => exact fun h => h.elim
        | panic => exact fun h => h.elim
        | ok n =>
          rintro ⟨d, d1, d2, d3⟩
          rw [← d3]
          simp only
          rw [← d2]
          exact hRS _ d true d1
    | false =>
      obtain ⟨d, d1, d2, d3⟩ := this
      have := hRS _ d false d1
      rw [d3, d2] at this
      exact this

theorem addKeyValue_sim (hr : Rep h p P up t) (key newVal : Bytes) (path : List Bytes) :
    PRel h up t (p.AddKeyValue h key newVal path) (P.AddKeyValue key newVal path) := by
  unfold ParserP.AddKeyValue Parser.AddKeyValue
  by_cases hk0 : (key.length == 0) = true
  · rw [if_pos hk0, if_pos hk0]; exact hr.same
  rw [if_neg hk0, if_neg hk0, get_sim hr path]
  cases hget : P.Get path with
  | panic => trivial
  | err e => exact hr.same
  | ok json =>
    simp only
    generalize (if key.length ≥ 2 then (idx newVal 0).map fun c => c == 91 || c == 123 else Out.ok false) = C
    by_cases h0 : (path.length == 0) = true
    · rw [if_pos h0, if_pos h0, hr.core]
      simp only [hr.holds.here.cell]
      rw [child_any hr.holds.here, hr.erase]
      by_cases hany : (P.core.down.any fun d => d.label == key) = true
      · rw [if_pos hany, if_pos hany]; exact hr.same
      rw [if_neg hany, if_neg hany]
      cases henc : enclosed json 123 125 .objectExpected with
      | some e => exact hr.same
      | none =>
        refine member_sim (R := fun h q c =>
            match beforeLast p.json (if c && p.json.length == 2 then memberText key newVal else 44 :: memberText key newVal) with
            | .ok json' => .done ⟨t.ptr, json'⟩ (h.attach t.ptr q) none
            | _ => .panic)
          (S := fun n c =>
            match beforeLast P.json (if c && P.json.length == 2 then memberText key newVal else 44 :: memberText key newVal) with
            | .ok json' => .done ⟨P.core.addChild n, json'⟩ none
            | _ => .panic) hr fun h' d c hd => ?_
        obtain ⟨t', b1, b2, -, -⟩ := hd.attach (path := []) rfl
        rw [hr.json]
        cases hbl : beforeLast P.json (if c && P.json.length == 2 then memberText key newVal else 44 :: memberText key newVal) with
        | ok json' =>
          have := b1.done (json := json') (e := none) hr.core (n := P.core.addChild d.erase) (by rw [b2, updAt_nil, hr.erase])
          rwa [hr.core] at this
        | err e => trivial
        | panic => trivial
    · rw [if_neg h0, if_neg h0]
      obtain ⟨pre, x, hpx, htake, hdl⟩ := snoc_cases h0
      rcases hr.walk path with ⟨s, h1, h2, h3⟩ | ⟨e, h1, h2, h3⟩
      · rw [h2]
        have h1' := h1
        rw [hpx] at h1'
        obtain ⟨u, a, b, hu, hdn, hl, ha, hs, v, hv⟩ := parent hr.holds.here h1'
        have hwu : P.core.walk path.dropLast = .ok u.erase := by
          rcases hr.walk pre with ⟨u2, e1, e2, e3⟩ | ⟨e, e1, e2, e3⟩
          · rw [hu] at e1; cases e1; rw [hdl, e3]
          · rw [hu] at e1; cases e1
        rw [hwu]
        simp only [hs.cell, Option.bind_some, hv.cell]
        rw [child_any hv]
        by_cases hany : (u.erase.down.any fun d => d.label == key) = true
        · rw [if_pos hany, if_pos hany]; exact hr.same
        rw [if_neg hany, if_neg hany]
        cases henc : enclosed json 123 125 .objectExpected with
        | some e => exact hr.same
        | none =>
          have := member_sim (C := C) (key := key) (newVal := newVal) (R := fun h q _ =>
              match Jin.AddKeyValue p.json key (some newVal) path with
              | .panic => .panic
              | .done json' (some e) => .done { p with json := json' } (h.attach s.ptr q) (some e)
              | .done json' none => finishP p json' (prefixes path 1 path.length) q (h.attach s.ptr q))
            (S := fun n _ =>
              match Jin.AddKeyValue P.json key (some newVal) path with
              | .panic => .panic
              | .done json' (some e) => .done ⟨P.core.updAt (·.addChild n) path, json'⟩ (some e)
              | .done json' none => finish json' (P.core.updAt (·.addChild n) path) (prefixes path 1 path.length)) hr fun h' d c hd => by
            obtain ⟨t', b1, b2, ⟨s', b3, b5⟩, b4⟩ := hd.attach h1
            rw [hr.json]
            have herase : t'.erase = P.core.updAt (·.addChild d.erase) path := by rw [b2, hr.erase]
            cases hj : Jin.AddKeyValue P.json key (some newVal) path with
            | panic => trivial
            | done json' e =>
              cases e with
              | some e => exact b1.done hr.core herase
              | none => exact Now.finish (Nat.le_refl 1) (Nat.le_refl _) hr.core b1 (by rw [List.take_length]; exact b3) (by rw [b5]; exact b4) herase
          cases C with
          | err e => trivial
          | panic => trivial
          | ok c =>
            cases c with
            | true =>
              revert this
              simp only
              cases (pCore newVal (.mk [] [] [])).map fun n => (n.setLabel key).setValue newVal <;> exact fun h => h
            | false => exact this
      · have : P.Get path = .err e := by
          unfold Parser.Get
          rw [if_neg h0, h3]; rfl
        rw [hget] at this
        cases this

theorem add_sim (hr : Rep h p P up t) (newVal : Bytes) (path : List Bytes) : PRel h up t (p.Add h newVal path) (P.Add newVal path) := by
  unfold ParserP.Add Parser.Add
  by_cases hk0 : (newVal.length == 0) = true
  · rw [if_pos hk0, if_pos hk0]; exact hr.same
  rw [if_neg hk0, if_neg hk0, get_sim hr path]
  cases hget : P.Get path with
  | panic => trivial
  | err e => exact hr.same
  | ok json =>
    simp only
    rcases hr.walk path with ⟨s, h1, h2, h3⟩ | ⟨e, h1, h2, h3⟩
    · rw [h2, h3]
      simp only
      cases henc : enclosed json 91 93 .arrayExpected with
      | some e => exact hr.same
      | none =>
        obtain ⟨v, hv⟩ := (walk_sub h1).here hr.holds.here
        simp only [hv.cell]
        rw [show s.erase.down.length = (s.down.map PTree.ptr).length by rw [erase_down, List.length_map, List.length_map]]
        generalize opensContainer newVal = c
        generalize itoa ((s.down.map PTree.ptr).length : Nat) = label
        have := newNode_two (c := c) (label := label) (newVal := newVal) hr.holds
        revert this
        cases hN : newNodeP h c label newVal with
        | none =>
          cases (if c then (pCore newVal (.mk [] [] [])).map fun n => (n.setLabel label).setValue newVal else Out.ok (.mk label newVal [])) with
          | ok n => exact fun h => h.elim
          | err e => exact fun h => h.elim
          | panic => exact fun _ => trivial
        | some x =>
          cases (if c then (pCore newVal (.mk [] [] [])).map fun n => (n.setLabel label).setValue newVal else Out.ok (.mk label newVal [])) with
          | err e => exact fun h => h.elim
          | panic => exact fun h => h.elim
          | ok n =>
            rintro ⟨d, d1, d2, d3⟩
            obtain ⟨t', b1, b2, ⟨s', b3, b5⟩, b4⟩ := d1.attach h1
            simp only
            rw [hr.json, ← d2]
            have herase : t'.erase = P.core.updAt (·.addChild n) path := by rw [b2, d3, hr.erase]
            by_cases h0 : (path.length == 0) = true
            · rw [if_pos h0, if_pos h0]
              cases hbl : beforeLast P.json (if c && P.json.length == 2 then newVal else 44 :: newVal) with
              | ok json' =>
                refine b1.done hr.core ?_
                have hp : path = [] := by simpa using h0
                rw [herase, hp]; rfl
              | err e => trivial
              | panic => trivial
            · rw [if_neg h0, if_neg h0]
              cases hj : Jin.Add P.json newVal path with
              | panic => trivial
              | done json' e =>
                cases e with
                | some e => exact b1.done hr.core herase
                | none =>
                  exact Now.finish (by split <;> omega) (Nat.le_refl _) hr.core b1 (by rw [List.take_length]; exact b3) (by rw [b5]; exact b4) herase
    · rw [h2, h3]
      exact hr.same

end Jin
