import Verif.Proof.PtrParse
/-!
# Proof.PtrMut — the mutators of `Parser` on pointers
-/

namespace Jin

variable {h h' h1 h2 : NHeap} {up : Option Nat} {t t' t1 t2 s s' u u' : PTree} {q : Nat} {path : List Bytes}

/-- What may happen to the memory around a tree: nothing that was there before changes, but the tree. -/
structure Safe (h : NHeap) (t : PTree) (h' : NHeap) (t' : PTree) : Prop where
  frame : ∀ x, x < h.length → x ∉ t.ptrs → h'[x]? = h[x]?
  fresh : ∀ x ∈ t'.ptrs, x ∈ t.ptrs ∨ h.length ≤ x
  grow : h.length ≤ h'.length

theorem Safe.rfl : Safe h t h t := ⟨fun _ _ _ => Eq.refl _, fun _ hx => .inl hx, Nat.le_refl _⟩

theorem Safe.trans (a : Safe h t h1 t1) (b : Safe h1 t1 h2 t2) : Safe h t h2 t2 := by
  refine ⟨fun x hx hxt => ?_, fun x hx => ?_, Nat.le_trans a.grow b.grow⟩
  · rw [b.frame x (Nat.lt_of_lt_of_le hx a.grow) fun hx' => (a.fresh x hx').elim hxt fun h => by omega, a.frame x hx hxt]
  · rcases b.fresh x hx with h | h
    · exact a.fresh x h
    · exact .inr (Nat.le_trans a.grow h)

/-- A tree in memory, with distinct addresses. -/
structure InMem (h : NHeap) (up : Option Nat) (t : PTree) : Prop where
  here : Here h up t
  nodup : t.ptrs.Nodup

/-- A tree in memory `h` that was the tree `t0` in memory `h0`. -/
structure Now (h0 : NHeap) (t0 : PTree) (up : Option Nat) (h : NHeap) (t : PTree) : Prop where
  mem : InMem h up t
  safe : Safe h0 t0 h t
  root : t.ptr = t0.ptr

variable {h0 : NHeap} {t0 d : PTree} {upd : Option Nat}

theorem Now.start (ht : InMem h up t) : Now h t up h t := ⟨ht, .rfl, rfl⟩

/-- One node and what is below it changes. -/
theorem Now.change {g : Node → Node} (ht : Now h0 t0 up h t) (hw : t.walk path = some u) (hp : u'.ptr = u.ptr)
    (hh : ∀ v, Here h v u → Here h' v u') (hn : u'.ptrs.Nodup) (hnew : ∀ x ∈ u'.ptrs, x ∈ u.ptrs ∨ x ∉ t.ptrs ∧ h0.length ≤ x)
    (hf : ∀ x, x ∉ u.ptrs → x ∈ t.ptrs ∨ x < h0.length → h'[x]? = h[x]?) (hgr : h.length ≤ h'.length) (hg : u'.erase = g u.erase) :
    Now h0 t0 up h' (t.put u.ptr u') ∧ (t.put u.ptr u').erase = t.erase.updAt g path := by
  have hsub := walk_sub hw
  refine ⟨⟨⟨ht.mem.here.put ht.mem.nodup hsub hp hh fun x hx hxu => hf x hxu (.inl hx),
      nodup_put ht.mem.nodup hsub hn fun x hx => (hnew x hx).imp id (·.1)⟩,
    ⟨fun x hx hxt => ?_, fun x hx => ?_, Nat.le_trans ht.safe.grow hgr⟩, (put_ptr hp).trans ht.root⟩, put_erase ht.mem.nodup hw hg⟩
  · rw [hf x (fun hxu => (ht.safe.fresh x (hsub.mem x hxu)).elim hxt fun h => by omega) (.inr hx), ht.safe.frame x hx hxt]
  · rcases mem_put hx with h | ⟨h, -⟩
    · exact ht.safe.fresh x h
    · exact (hnew x h).elim (fun h => ht.safe.fresh x (hsub.mem x h)) fun h => .inr h.2

/-- A new value in one node. -/
theorem changeV {g : Node → Node} {x : Bytes} (ht : InMem h up t) (hw : t.walk path = some u) (hg : u.erase.setValue x = g u.erase) :
    InMem (h.setValue u.ptr x) up (t.setV u.ptr x) ∧ (t.setV u.ptr x).erase = t.erase.updAt g path ∧ Safe h t (h.setValue u.ptr x) (t.setV u.ptr x) := by
  have hsub := walk_sub hw
  refine ⟨⟨ht.here.setV x, by rw [setV_ptrs]; exact ht.nodup⟩, setV_erase ht.nodup hw hg, ⟨fun y hy hyt => setValue_ne ?_, fun y hy => ?_, ?_⟩⟩
  · rintro rfl
    exact hyt (hsub.mem _ (ptr_mem u))
  · rw [setV_ptrs] at hy; exact .inl hy
  · simp [NHeap.setValue]

theorem walk_child {x : Bytes} (ht : Here h up t) (hw : t.walk (path ++ [x]) = some s) :
    ∃ u, t.walk path = some u ∧ u.down.find? (fun d => d.label == x) = some s ∧ Here h (some u.ptr) s := by
  rw [ptr_walk_snoc] at hw
  obtain ⟨u, hu, hs⟩ := Option.bind_eq_some_iff.1 hw
  obtain ⟨v, hv⟩ := (walk_sub hu).here ht
  exact ⟨u, hu, hs, hv.kids s (List.mem_of_find?_eq_some hs)⟩

theorem walk_prefix {a b : List Bytes} (hw : t.walk (a ++ b) = some s) : ∃ u, t.walk a = some u := by
  induction a generalizing t with
  | nil => exact ⟨t, rfl⟩
  | cons p ps ih =>
    rw [List.cons_append, PTree.walk] at hw
    obtain ⟨d, hd, hw'⟩ := Option.bind_eq_some_iff.1 hw
    obtain ⟨u, hu⟩ := ih hw'
    exact ⟨u, by rw [PTree.walk, hd]; exact hu⟩

theorem ptr_prefixes_nil {m k : Nat} (hk : k < m) : prefixes path m k = [] := by
  unfold prefixes
  rw [show k + 1 - m = 0 by omega]
  rfl

theorem prefixes_step {m k : Nat} (hk : m ≤ k + 1) : prefixes path m (k + 1) = path.take (k + 1) :: prefixes path m k := by
  unfold prefixes
  rw [show k + 1 + 1 - m = (k + 1 - m) + 1 by omega, List.range'_concat, List.map_append, List.reverse_append]
  simp [show m + (k + 1 - m) = k + 1 by omega]

/-- The result of climbing. -/
def ClimbRel (h : NHeap) (up : Option Nat) (t : PTree) : Option (NHeap × Option Err) → Out (Node × Option Err) → Prop
  | some (h', e), .ok (n, e') => e = e' ∧ ∃ t', t'.ptr = t.ptr ∧ InMem h' up t' ∧ t'.erase = n ∧ Safe h t h' t'
  | none, .panic => True
  | _, _ => False

theorem climb_sim {json : Bytes} {m : Nat} (hm : 1 ≤ m) : ∀ {k : Nat} {t u : PTree} {h : NHeap} {curr : Nat}, k ≤ path.length → InMem h up t →
    t.walk (path.take k) = some u → (m ≤ k → h[curr]?.bind NodeRec.up = some u.ptr) →
    ClimbRel h up t (climb json (prefixes path m k) curr h) (refresh json (prefixes path m k) t.erase)
  | 0, t, u, h, curr, _, ht, _, _ => by
    rw [ptr_prefixes_nil (by omega)]
    exact ⟨rfl, t, rfl, ht, rfl, .rfl⟩
  | k + 1, t, u, h, curr, hk, ht, hw, hup => by
    by_cases hmk : m ≤ k + 1
    · rw [prefixes_step hmk, climb, refresh, hup hmk]
      simp only
      cases hg : Jin.Get json (path.take (k + 1)) with
      | panic => trivial
      | err e =>
        obtain ⟨c1, c2, c3⟩ := changeV (g := (·.setValue [])) ht hw rfl
        exact ⟨rfl, _, setV_ptr, c1, c2, c3⟩
      | ok v =>
        obtain ⟨c1, c2, c3⟩ := changeV (g := (·.setValue v)) (x := v) ht hw rfl
        simp only
        rw [← c2]
        obtain ⟨x, hx⟩ : ∃ x, path.take (k + 1) = path.take k ++ [x] := ⟨path[k], (List.take_append_getElem hk).symm⟩
        rw [hx] at hw
        obtain ⟨u0, hu0, -, hu⟩ := walk_child ht.here hw
        have := climb_sim (json := json) hm (k := k) (t := t.setV u.ptr v) (u := u0.setV u.ptr v) (h := h.setValue u.ptr v) (curr := u.ptr) (by omega) c1
          (by rw [setV_walk, hu0]; rfl) (fun _ => by rw [setValue_at hu.cell, setV_ptr]; rfl)
        revert this
        unfold ClimbRel
        split
        · rintro ⟨a, t', b1, b2, b3, b4⟩
          exact ⟨a, t', b1.trans setV_ptr, b2, b3, c3.trans b4⟩
        · exact fun h => h
        · exact fun h => h
    · rw [ptr_prefixes_nil (by omega)]
      exact ⟨rfl, t, rfl, ht, rfl, .rfl⟩

/-- A parser on pointers and a parser on trees. -/
structure Rep (h : NHeap) (p : ParserP) (P : Parser) (up : Option Nat) (t : PTree) : Prop where
  json : p.json = P.json
  core : p.core = t.ptr
  holds : InMem h up t
  erase : t.erase = P.core

/-- Results of mutators. -/
def PRel (h : NHeap) (up : Option Nat) (t : PTree) : PResP → PRes → Prop
  | .done p' h' e, .done P' e' => e = e' ∧ ∃ t', Rep h' p' P' up t' ∧ Safe h t h' t'
  | .panic, .panic => True
  | _, _ => False

variable {p : ParserP} {P : Parser}

theorem Rep.same (hr : Rep h p P up t) {e : Option Err} : PRel h up t (.done p h e) (.done P e) := ⟨rfl, t, hr, .rfl⟩

theorem finish_sim {json : Bytes} {m k : Nat} {curr : Nat} (hm : 1 ≤ m) (hk : k ≤ path.length) (hp : p.core = t1.ptr) (ht : InMem h1 up t1)
    (hw : t1.walk (path.take k) = some u) (hup : m ≤ k → h1[curr]?.bind NodeRec.up = some u.ptr) (hs : Safe h t h1 t1) :
    PRel h up t (finishP p json (prefixes path m k) curr h1) (finish json t1.erase (prefixes path m k)) := by
  have := climb_sim (json := json) hm hk ht hw hup
  unfold finishP finish
  revert this
  cases climb json (prefixes path m k) curr h1 with
  | none =>
    cases refresh json (prefixes path m k) t1.erase with
    | ok x => exact fun h => h.elim
    | err e => exact fun h => h.elim
    | panic => exact fun _ => trivial
  | some x =>
    cases refresh json (prefixes path m k) t1.erase with
    | ok y =>
      rintro ⟨a, t', b1, b2, b3, b4⟩
      exact ⟨a, t', ⟨rfl, by rw [b1]; exact hp, b2, b3⟩, hs.trans b4⟩
    | err e => exact fun h => h.elim
    | panic => exact fun h => h.elim

end Jin
