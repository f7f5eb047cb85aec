import Verif.Proof.PtrInsert
/-!
# Proof.PtrRead — `Parse`, `GetNew`, `Tree`, `TreeFull` of `Parser` on pointers and on trees
-/

namespace Jin

variable {h h' : NHeap} {up : Option Nat} {t d : PTree} {path : List Bytes} {p : ParserP} {P : Parser}

/-- `Parse` makes its tree of new nodes and leaves the rest of memory alone. -/
theorem parse_sim (json : Bytes) (h : NHeap) :
    match ParseP json h, Parse json with
    | .ok (p, h'), .ok P => (∃ up t, Rep h' p P up t ∧ ∀ x ∈ t.ptrs, h.length ≤ x) ∧ (∀ x, x < h.length → h'[x]? = h[x]?) ∧ h.length ≤ h'.length
    | .err e, .err e' => e = e'
    | .panic, .panic => True
    | _, _ => False := by
  have hc : (createNode h none).1[h.length]? = some ⟨[], [], none, []⟩ := by simp [createNode, NHeap.new]
  have hlen : (createNode h none).1.length = h.length + 1 := by simp [createNode, NHeap.new]
  have hfr : ∀ x, x < h.length → (createNode h none).1[x]? = h[x]? := fun x hx => List.getElem?_append_left hx
  have := pCore_rel json hc
  unfold ParseP Parse
  simp only
  rw [show (createNode h none).2 = h.length from rfl]
  revert this
  cases pCoreP json h.length (createNode h none).1 with
  | none =>
    cases pCore json (.mk [] [] []) with
    | ok n => exact fun h => h.elim
    | err e => exact fun h => h.elim
    | panic => exact fun _ => trivial
  | some h' =>
    cases pCore json (.mk [] [] []) with
    | err e => exact fun h => h.elim
    | panic => exact fun h => h.elim
    | ok n =>
      rintro ⟨t, h1, hh, hn, he, hf1, hf2, hg⟩
      rw [← h1]
      simp only [hh.cell]
      rw [h1]
      show match (match t.down.map PTree.ptr with | [] => Out.err (.badJSON 0) | c :: _ => Out.ok ((⟨c, json⟩ : ParserP), h')),
        (match n.down with | [] => Out.err (.badJSON 0) | c :: _ => Out.ok (⟨c, json⟩ : Parser)) with
        | .ok (p, h'), .ok P => (∃ up t, Rep h' p P up t ∧ ∀ x ∈ t.ptrs, h.length ≤ x) ∧ (∀ x, x < h.length → h'[x]? = h[x]?) ∧ h.length ≤ h'.length
        | .err e, .err e' => e = e'
        | .panic, .panic => True
        | _, _ => False
      rw [← he, erase_down]
      cases hd : t.down with
      | nil => rfl
      | cons c cs =>
        have hck : c ∈ t.down := by rw [hd]; exact List.mem_cons_self
        have hsub : Sub c t := .kid hck .refl
        refine ⟨⟨some t.ptr, c, ⟨rfl, rfl, ⟨hh.kids c hck, hsub.nodup hn⟩, rfl⟩, fun x hx => ?_⟩, fun x hx => ?_, by omega⟩
        · rcases hf1 x (hsub.mem x hx) with e | e
          · omega
          · omega
        · rw [hf2 x (by omega) (by omega), hfr x hx]

theorem ptrs_pos (t : PTree) : 1 ≤ t.ptrs.length := by rw [ptrs_split]; simp

/-- The number of nodes is at most the size of memory. -/
theorem InMem.size (ht : InMem h up t) : t.ptrs.length ≤ h.length := by
  have := ht.nodup.length_le_of_subset (l₂ := List.range h.length) fun x hx => List.mem_range.2 (ht.here.lt x hx)
  rwa [List.length_range] at this

mutual
theorem dive_sim : ∀ (fuel : Nat) (t : PTree) (up : Option Nat), Here h up t → 2 * t.ptrs.length ≤ fuel → h.dive fuel t.ptr = t.erase.dive
  | 0, t, up, _, hf => by have := ptrs_pos t; omega
  | fuel + 1, .mk p l v ds, up, ht, hf => by
    rw [NHeap.dive, show (PTree.mk p l v ds).ptr = p from rfl, ht.1]
    simp only
    rw [PTree.erase, Node.dive]
    cases hc : idx v 0 with
    | panic => rfl
    | err e => rfl
    | ok c =>
      have hl : 2 * (ptrsL ds).length + 1 ≤ fuel := by rw [PTree.ptrs, List.length_cons] at hf; omega
      have := diveList_sim fuel ds p l v up (ds.map PTree.ptr) c ht.1 hc (hereL_iff.1 ht.2) hl
      show (NHeap.diveList h fuel (ds.map PTree.ptr) >>= _) = _
      rw [this]; rfl
theorem diveList_sim : ∀ (fuel : Nat) (ds : List PTree) (p : Nat) (l v : Bytes) (up : Option Nat) (dn : List Nat) (c : UInt8),
    h[p]? = some ⟨l, v, up, dn⟩ → idx v 0 = .ok c →
    (∀ d ∈ ds, Here h (some p) d) → 2 * (ptrsL ds).length + 1 ≤ fuel → h.diveList fuel (ds.map PTree.ptr) = diveList v c (eraseL ds)
  | 0, ds, _, _, _, _, _, _, _, _, _, hf => by omega
  | fuel + 1, [], _, _, _, _, _, _, _, _, _, _ => by rw [List.map_nil, NHeap.diveList, eraseL, diveList]
  | fuel + 1, d :: ds, p, l, v, up, dn, c, hp, hc, hk, hf => by
    have hd := hk d List.mem_cons_self
    rw [ptrsL, List.length_append] at hf
    have := ptrs_pos d
    have hrest := diveList_sim fuel ds p l v up dn c hp hc (fun e he => hk e (List.mem_cons_of_mem _ he)) (by omega)
    have hdive := dive_sim fuel d (some p) hd (by omega)
    rw [List.map_cons, NHeap.diveList, hd.cell]
    simp only
    rw [eraseL, hrest, hdive]
    obtain ⟨dp, dl, dv, dds⟩ := d
    rw [PTree.erase, diveList]
    have hemp : ((PTree.mk dp dl dv dds).down.map PTree.ptr).isEmpty = (eraseL dds).isEmpty := by
      rw [eraseL_map]; cases dds <;> rfl
    rw [hemp]
    simp only [Option.bind_some, hp, hc]
    rfl
end

theorem getNew_sim (hr : Rep h p P up t) {fuel : Nat} (hf : 2 * h.length ≤ fuel) (path : List Bytes) : p.GetNew h fuel path = P.GetNew path := by
  unfold ParserP.GetNew Parser.GetNew
  rcases hr.walk path with ⟨s, h1, h2, h3⟩ | ⟨e, h1, h2, h3⟩
  · obtain ⟨v, hv⟩ := (walk_sub h1).here hr.holds.here
    have hs : InMem h v s := ⟨hv, (walk_sub h1).nodup hr.holds.nodup⟩
    rw [h2, h3]
    simp only [hv.cell]
    rw [dive_sim fuel s v hv (by have := hs.size; omega), erase_value, show (s.down.map PTree.ptr).isEmpty = s.erase.down.isEmpty by
      rw [erase_down]; cases s.down <;> rfl]
  · rw [h2, h3]

theorem createTrees_sim (pad : Bytes → Bytes) (b : Bool) : ∀ (fuel depth : Nat) (ds : List PTree) (p : Nat),
    (∀ d ∈ ds, Here h (some p) d) → (ptrsL ds).length ≤ fuel → h.createTrees pad b fuel depth (ds.map PTree.ptr) = some (createTrees pad depth b (eraseL ds))
  | fuel, depth, [], _, _, _ => by rw [List.map_nil, NHeap.createTrees, eraseL, createTrees]
  | 0, depth, d :: ds, _, _, hf => by
    rw [ptrsL, List.length_append] at hf
    have := ptrs_pos d
    omega
  | fuel + 1, depth, .mk dp dl dv dds :: ds, p, hk, hf => by
    have hd := hk _ List.mem_cons_self
    rw [ptrsL, List.length_append, PTree.ptrs, List.length_cons] at hf
    have hrest := createTrees_sim pad b fuel depth ds p (fun e he => hk e (List.mem_cons_of_mem _ he)) (by omega)
    have hdown := createTrees_sim pad b fuel (depth + 1) dds dp (hereL_iff.1 hd.2) (by omega)
    rw [List.map_cons, NHeap.createTrees, show (PTree.mk dp dl dv dds).ptr = dp from rfl, hd.1]
    simp only
    rw [hrest, hdown, eraseL, PTree.erase, createTrees, Node.createTree]
    have : (dds.map PTree.ptr).length = (eraseL dds).length := by rw [eraseL_map]; simp
    rw [this]
    split <;> rfl

theorem tree_sim (hr : Rep h p P up t) {fuel : Nat} (hf : h.length ≤ fuel) (pad : Bytes → Bytes) (b : Bool) :
    p.tree h fuel pad b = some (P.core.createTree pad 0 b) := by
  unfold ParserP.tree
  rw [hr.core, hr.holds.here.cell, ← hr.erase]
  simp only
  have := hr.holds.size
  rw [createTrees_sim pad b fuel 0 t.down t.ptr hr.holds.here.kids (by rw [ptrs_split, List.length_cons] at this; omega)]
  cases t
  rw [PTree.erase, Node.createTree]; rfl

end Jin
