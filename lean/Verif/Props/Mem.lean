import Verif.Proof.Mem
import Verif.Props.Make
/-!
# Props.Mem — C75 … C78: slices that share memory

`Slice.ok s h` says that the slice lies inside its array; every slice of a Go program does.
-/

namespace Jin

/-! ### Results and effects of the functions that append to their path -/

section
variable (grow : Nat → Nat) {h : Heap} {path : Slice} (hp : path.ok h)
include hp

theorem addKeyValueMem_eq (json key value : Bytes) : (addKeyValueMem grow h json key value path).1 = addKeyValue json key value (h.read path) ∧
    Frame path.spot h (addKeyValueMem grow h json key value path).2 := by
  unfold addKeyValueMem addKeyValue
  split
  · exact ⟨rfl, .refl _ _⟩
  cases containerSpan json 123 125 .objectExpected (h.read path) with
  | panic => exact ⟨rfl, .refl _ _⟩
  | err e => exact ⟨rfl, .refl _ _⟩
  | ok p =>
    obtain ⟨start, stop⟩ := p
    simp only [Mut.bindOut]
    cases bracketsAt json 123 125 start stop with
    | panic => exact ⟨rfl, .refl _ _⟩
    | err e => exact ⟨rfl, .refl _ _⟩
    | ok b =>
      cases b with
      | false => exact ⟨rfl, .refl _ _⟩
      | true =>
        simp only [if_true]
        cases firstNS json (start + 1) (stop - 1) with
        | none => exact ⟨rfl, .refl _ _⟩
        | some j =>
          simp only [append_read hp]
          cases core json false (h.read path ++ [key]) with
          | panic => exact ⟨rfl, append_frame ..⟩
          | ok l => exact ⟨rfl, append_frame ..⟩
          | err e =>
            simp only
            split
            · exact ⟨rfl, append_frame ..⟩
            · exact ⟨rfl, append_frame ..⟩

theorem AddKeyValueMem_eq (json key : Bytes) (value : Option Bytes) :
    (AddKeyValueMem grow h json key value path).1 = AddKeyValue json key value (h.read path) ∧
    Frame path.spot h (AddKeyValueMem grow h json key value path).2 := by
  cases value <;> exact addKeyValueMem_eq grow hp ..

theorem InsertMem_eq (json : Bytes) (index : Int) (value : Bytes) :
    (InsertMem grow h json index value path).1 = Insert json index value (h.read path) ∧
    Frame path.spot h (InsertMem grow h json index value path).2 := by
  unfold InsertMem Insert
  cases containerSpan json 91 93 .arrayExpected (h.read path) with
  | panic => exact ⟨rfl, .refl _ _⟩
  | err e => exact ⟨rfl, .refl _ _⟩
  | ok p =>
    obtain ⟨start, stop⟩ := p
    simp only [Mut.bindOut]
    cases bracketsAt json 91 93 start stop with
    | panic => exact ⟨rfl, .refl _ _⟩
    | err e => exact ⟨rfl, .refl _ _⟩
    | ok b =>
      cases b with
      | false => exact ⟨rfl, .refl _ _⟩
      | true =>
        simp only [append_read hp]
        exact ⟨rfl, append_frame ..⟩

theorem StoreMem_eq (json key : Bytes) (value : Option Bytes) :
    (StoreMem grow h json key value path).1 = Store json key value (h.read path) ∧
    Frame path.spot h (StoreMem grow h json key value path).2 := by
  have f := append_frame grow h path key
  unfold StoreMem Store
  simp only [append_read hp]
  cases core json false (h.read path ++ [key]) with
  | panic => exact ⟨rfl, f⟩
  | ok l => exact ⟨rfl, f⟩
  | err e =>
    simp only
    split
    · obtain ⟨h1, h2⟩ := AddKeyValueMem_eq grow (f.ok hp) json key value
      rw [h1, f.read hp fun i a b => Slice.not_spot i a b]
      exact ⟨rfl, f.trans h2 fun _ _ _ h => h⟩
    · exact ⟨rfl, f⟩

omit hp in
/-- The keys do not lie on the cell behind the path. -/
def Slice.apart (keys path : Slice) : Prop := ∀ i, keys.off ≤ i → i < keys.off + keys.len → ¬ path.spot keys.blk i

omit hp in
theorem GetAllMem_frame (json : Bytes) (keys : Slice) : ∀ (n : Nat) (h : Heap), path.ok h → Frame path.spot h (getAllMem grow json keys path n h).2
  | 0, h, _ => .refl _ _
  | n + 1, h, hp => by
    have f := fun k => append_frame grow h path k
    rw [getAllMem]
    cases (h.read keys)[keys.len - (n + 1)]? with
    | none => exact .refl _ _
    | some k =>
      simp only
      cases GetString json ((h.append grow path k).1.read (h.append grow path k).2) with
      | panic => exact f k
      | err e => exact f k
      | ok v =>
        have := (f k).trans (GetAllMem_frame json keys n _ ((f k).ok hp)) fun _ _ _ h => h
        revert this
        simp only
        generalize getAllMem grow json keys path n _ = r
        intro this
        obtain ⟨r, h'⟩ := r
        cases r <;> exact this

omit hp in
theorem GetAllMapMem_frame (json : Bytes) (keys : Slice) : ∀ (n : Nat) (m : GoMap) (h : Heap), path.ok h →
    Frame path.spot h (getAllMapMem grow json keys path n m h).2
  | 0, _, h, _ => .refl _ _
  | n + 1, m, h, hp => by
    have f := fun k => append_frame grow h path k
    rw [getAllMapMem]
    cases (h.read keys)[keys.len - (n + 1)]? with
    | none => exact .refl _ _
    | some k =>
      simp only
      cases GetString json ((h.append grow path k).1.read (h.append grow path k).2) with
      | panic => exact f k
      | err e => exact f k
      | ok v => exact (f k).trans (GetAllMapMem_frame json keys n _ _ ((f k).ok hp)) fun _ _ _ h => h

omit hp in
theorem getAllMem_eq (json : Bytes) (keys : Slice) (ha : keys.apart path) : ∀ (n : Nat) (h : Heap), path.ok h → keys.ok h → n ≤ keys.len →
    (getAllMem grow json keys path n h).1 = GetAll json ((h.read keys).drop (keys.len - n)) (h.read path)
  | 0, h, hp, hk, hn => by
    rw [List.drop_of_length_le (by rw [read_length hk]; omega)]; rfl
  | n + 1, h, hp, hk, hn => by
    have hl := read_length hk
    rw [getAllMem, List.drop_eq_getElem_cons (by omega), List.getElem?_eq_getElem (by omega)]
    simp only [append_read hp]
    rw [GetAll]
    have f := append_frame grow h path (h.read keys)[keys.len - (n + 1)]
    have ih := getAllMem_eq json keys ha n _ (f.ok hp) (f.ok hk) (by omega)
    rw [f.read hk ha, f.read hp fun i a b => Slice.not_spot i a b] at ih
    rw [show keys.len - (n + 1) + 1 = keys.len - n by omega]
    cases GetString json (h.read path ++ [(h.read keys)[keys.len - (n + 1)]]) with
    | panic => rfl
    | err e => rfl
    | ok v =>
      show _ = (GetAll json ((h.read keys).drop (keys.len - n)) (h.read path) >>= fun vs => pure (v :: vs))
      rw [← ih]
      simp only
      generalize getAllMem grow json keys path n _ = r
      obtain ⟨r, h'⟩ := r
      cases r <;> rfl

omit hp in
theorem getAllMapMem_eq (json : Bytes) (keys : Slice) (ha : keys.apart path) : ∀ (n : Nat) (m : GoMap) (h : Heap), path.ok h → keys.ok h → n ≤ keys.len →
    (getAllMapMem grow json keys path n m h).1 = getAllMapLoop json (h.read path) ((h.read keys).drop (keys.len - n)) m
  | 0, m, h, hp, hk, hn => by
    rw [List.drop_of_length_le (by rw [read_length hk]; omega)]; rfl
  | n + 1, m, h, hp, hk, hn => by
    have hl := read_length hk
    rw [getAllMapMem, List.drop_eq_getElem_cons (by omega), List.getElem?_eq_getElem (by omega)]
    simp only [append_read hp]
    rw [getAllMapLoop]
    have f := append_frame grow h path (h.read keys)[keys.len - (n + 1)]
    have ih := fun m => getAllMapMem_eq json keys ha n m _ (f.ok hp) (f.ok hk) (by omega)
    rw [f.read hk ha, f.read hp fun i a b => Slice.not_spot i a b] at ih
    rw [show keys.len - (n + 1) + 1 = keys.len - n by omega]
    cases GetString json (h.read path ++ [(h.read keys)[keys.len - (n + 1)]]) with
    | panic => rfl
    | err e => rfl
    | ok v => exact ih _

omit hp in
/-- The slice `t` contains the cell right behind the path, and that cell belongs to the capacity of
the path. -/
def Slice.holds (t path : Slice) : Prop :=
  t.blk = path.blk ∧ t.off ≤ path.off + path.len ∧ path.off + path.len < t.off + t.len ∧ path.len < path.cap

/-- **C75 (partial)** What a call of `AddKeyValue`, `Insert`, `Store`, `GetAll` or `GetAllMap` does
to the slices of the caller: all of them read as before, but for those that contain the cell right
behind the path when the path has spare capacity.  Missing: that cell, which may be overwritten
(`C75_fails`).  A path without spare capacity - one that is written out in the call - has no such
cell. -/
theorem C75_caller_memory_partial (json key : Bytes) (value : Option Bytes) (index : Int) (keys : Slice) :
    ∀ h' ∈ [(AddKeyValueMem grow h json key value path).2, (InsertMem grow h json index (value.getD []) path).2,
        (StoreMem grow h json key value path).2, (GetAllMem grow h json keys path).2, (GetAllMapMem grow h json keys path).2],
    ∀ t : Slice, t.ok h → (¬ t.holds path → h'.read t = h.read t) ∧ (path.len = path.cap → h'.read t = h.read t) ∧
      (∀ i, t.off + i ≠ path.off + path.len → (h'.read t)[i]? = (h.read t)[i]?) := by
  have key : ∀ h', Frame path.spot h h' → ∀ t : Slice, t.ok h → (¬ t.holds path → h'.read t = h.read t) ∧
      (path.len = path.cap → h'.read t = h.read t) ∧ (∀ i, t.off + i ≠ path.off + path.len → (h'.read t)[i]? = (h.read t)[i]?) := by
    intro h' f t ht
    refine ⟨fun hh => f.read ht fun i a b hs => hh ?_, fun he => f.read ht fun i _ _ hs => ?_, fun i hi => ?_⟩
    · obtain ⟨h1, h2, h3⟩ := hs
      exact ⟨h1, by omega, by omega, h3⟩
    · have := hs.2.2; omega
    · rw [read_getElem?, read_getElem?]
      split
      · rcases Nat.lt_or_ge t.blk h.length with hb | hb
        · exact f.cell _ _ hb fun hs => hi hs.2.1
        · have h1 := ht.le
          have h2 := ht.fit
          rw [block_none hb] at h2
          simp only [List.length_nil] at h2
          omega
      · rfl
  intro h' hm
  simp only [List.mem_cons, List.not_mem_nil, or_false] at hm
  rcases hm with rfl | rfl | rfl | rfl | rfl
  · exact key _ (AddKeyValueMem_eq grow hp ..).2
  · exact key _ (InsertMem_eq grow hp ..).2
  · exact key _ (StoreMem_eq grow hp ..).2
  · exact key _ (GetAllMem_frame grow json keys _ h hp)
  · exact key _ (GetAllMapMem_frame grow json keys _ _ h hp)

/-- **C76 (partial)** The results do not depend on where the arguments lie in memory: they are those
of the model on values.  `GetAll` and `GetAllMap` need that the keys do not contain the cell behind
the path.  Missing: the other case, where a key is overwritten before it is read (`C76_fails`). -/
theorem C76_layout_partial (json key : Bytes) (value : Option Bytes) (index : Int) :
    (AddKeyValueMem grow h json key value path).1 = AddKeyValue json key value (h.read path) ∧
    (InsertMem grow h json index (value.getD []) path).1 = Insert json index (value.getD []) (h.read path) ∧
    (StoreMem grow h json key value path).1 = Store json key value (h.read path) ∧
    (∀ keys : Slice, keys.ok h → ¬ keys.holds path →
      (GetAllMem grow h json keys path).1 = GetAll json (h.read keys) (h.read path) ∧
      (GetAllMapMem grow h json keys path).1 = GetAllMap json (h.read keys) (h.read path)) := by
  refine ⟨(AddKeyValueMem_eq grow hp ..).1, (InsertMem_eq grow hp ..).1, (StoreMem_eq grow hp ..).1, fun keys hk hh => ?_⟩
  have ha : keys.apart path := fun i a b hs => hh ⟨hs.1, by have := hs.2; omega, by have := hs.2; omega, hs.2.2⟩
  have h1 := getAllMem_eq grow json keys ha keys.len h hp hk (Nat.le_refl _)
  have h2 := getAllMapMem_eq grow json keys ha keys.len [] h hp hk (Nat.le_refl _)
  rw [Nat.sub_self, List.drop_zero] at h1 h2
  exact ⟨h1, h2⟩

end

/-- Memory with one array, and slices of it: `args := []string{"a", "b", "c"}`, `args[:1]`, `args[:2]`,
`args[2:]`. -/
def Sample.args : Heap := [[str "a", str "b", str "c"]]
def Sample.args0 : Slice := ⟨0, 0, 3, 3⟩
def Sample.args1 : Slice := ⟨0, 0, 1, 3⟩
def Sample.args2 : Slice := ⟨0, 0, 2, 3⟩
def Sample.args3 : Slice := ⟨0, 2, 1, 1⟩

example : Sample.args2.ok Sample.args ∧ Sample.args3.ok Sample.args ∧ ¬ Sample.args3.holds Sample.args1 ∧
    (GetAllMem doubling Sample.args (str "{\"a\":{\"c\":3}}") Sample.args3 Sample.args1).1 = .ok [str "3"] :=
  ⟨⟨by decide, by decide +kernel⟩, ⟨by decide, by decide +kernel⟩, by unfold Slice.holds; decide, by decide +kernel⟩

/-- **C75 is false**: `Insert(json, 0, v, args[:1]...)` overwrites `args[1]`, and so do the others. -/
theorem C75_fails :
    (InsertMem doubling Sample.args (str "{\"a\":[1]}") 0 (str "2") Sample.args1).1 = .done (str "{\"a\":[2,1]}") none ∧
    (InsertMem doubling Sample.args (str "{\"a\":[1]}") 0 (str "2") Sample.args1).2.read Sample.args0 = [str "a", str "0", str "c"] ∧
    (StoreMem doubling Sample.args (str "{\"a\":{\"k\":1}}") (str "k") (some (str "2")) Sample.args1).2.read Sample.args0 =
      [str "a", str "k", str "c"] ∧
    (AddKeyValueMem doubling Sample.args (str "{\"a\":{\"k\":1}}") (str "n") none Sample.args1).2.read Sample.args0 =
      [str "a", str "n", str "c"] := by
  refine ⟨?_, ?_, ?_, ?_⟩ <;> decide +kernel

/-- **C76 is false** for `GetAll` when the keys share memory with the path: asked for `a`, `b` and
`c`, it returns `a`, `b` and `b`. -/
theorem C76_fails :
    GetAll (str "{\"a\":{\"b\":{\"a\":1,\"b\":2,\"c\":3}}}") (Sample.args.read Sample.args0) (Sample.args.read Sample.args2) =
      .ok [str "1", str "2", str "3"] ∧
    (GetAllMem doubling Sample.args (str "{\"a\":{\"b\":{\"a\":1,\"b\":2,\"c\":3}}}") Sample.args0 Sample.args2).1 =
      .ok [str "1", str "2", str "2"] := by
  refine ⟨?_, ?_⟩ <;> decide +kernel

/-! ### Walk -/

/-- The capacity of a path slice of `Walk` by its length. -/
def capOf (grow : Nat → Nat) : Nat → Nat
  | 0 => 0
  | n + 1 => if n < capOf grow n then capOf grow n else n + 1 + grow n

/-- A path slice of `Walk`. -/
structure Slice.walks (grow : Nat → Nat) (s : Slice) (h : Heap) : Prop where
  ok : s.ok h
  off : s.off = 0
  cap : s.cap = capOf grow s.len

theorem Slice.walks.append {grow : Nat → Nat} {s : Slice} {h : Heap} (hs : s.walks grow h) (x : Bytes) :
    (h.append grow s x).2.walks grow (h.append grow s x).1 where
  ok := slice_append_ok hs.ok
  off := by
    unfold Heap.append
    split
    · exact hs.off
    · rfl
  cap := by
    have h1 := hs.cap
    have h2 := hs.ok.le
    unfold Heap.append
    split
    · show s.cap = capOf grow (s.len + 1)
      rw [capOf, if_pos (by omega), h1]
    · show s.len + 1 + grow s.len = capOf grow (s.len + 1)
      rw [capOf, if_neg (by omega)]

/-- `Walk` in memory and `Walk` on values do the same, for callbacks that keep a relation `R` between
their states which survives the appending of path entries. -/
theorem walk_sim {σ τ : Type} {grow : Nat → Nat} {isFloat : Bytes → Bool} {json : Bytes}
    {cb : Heap × σ → Bytes → Bytes → Slice → Cb (Heap × σ)} {cb0 : τ → Bytes → Bytes → List Bytes → Cb τ} {R : Heap → σ → τ → Prop}
    (hcb : ∀ h u t k v s, R h u t → s.walks grow h →
      CbRel (fun x t' => R x.1 x.2 t' ∧ Frame (fun _ _ => False) h x.1) (cb (h, u) k v s) (cb0 t k v (h.read s)))
    (hR : ∀ h u t x s, R h u t → s.walks grow h → R (h.append grow s x).1 u t) :
    ∀ (fuel : Nat) (s : Slice) (h : Heap) (u : σ) (t : τ), s.walks grow h → R h u t →
    IterRel (fun x t' => R x.1 x.2 t' ∧ Frame s.room h x.1) (walkMem grow isFloat json cb fuel s (h, u)) (walk isFloat json cb0 fuel (h.read s) t)
  | 0, _, _, _, _, _, _ => trivial
  | fuel + 1, s, h, u, t, hs, hr => by
    have child : ∀ (x : Bytes) (h1 : Heap) (u1 : σ) (t1 : τ), R h1 u1 t1 → Frame s.room h h1 →
        IterRel (fun y t' => R y.1 y.2 t' ∧ Frame s.room h y.1)
          (walkMem grow isFloat json cb fuel (h1.append grow s x).2 ((h1.append grow s x).1, u1)) (walk isFloat json cb0 fuel (h.read s ++ [x]) t1) := by
      intro x h1 u1 t1 hr1 f
      have hs1 : s.walks grow h1 := ⟨f.ok hs.ok, hs.off, hs.cap⟩
      have := walk_sim (isFloat := isFloat) (json := json) hcb hR fuel _ _ u1 t1 (hs1.append x) (hR _ _ _ x _ hr1 hs1)
      rw [append_read hs1.ok, f.read hs.ok fun i a b => Slice.not_room i a b] at this
      have g : Frame s.room h (h1.append grow s x).1 := f.trans (append_frame grow h1 s x) fun _ _ _ h => Slice.spot_room h
      have sub : ∀ b i, b < h.length → (h1.append grow s x).2.room b i → s.room b i := by
        intro b i hb hroom
        rcases append_slice (grow := grow) (h := h1) (s := s) (x := x) with e | ⟨hc, e⟩
        · have := hroom.1
          have := f.len
          omega
        · rw [e] at hroom
          exact ⟨hroom.1, by have := hroom.2.1; simp only at this; omega, hroom.2.2⟩
      revert this
      cases walkMem grow isFloat json cb fuel (h1.append grow s x).2 ((h1.append grow s x).1, u1) with
      | panic => cases walk isFloat json cb0 fuel (h.read s ++ [x]) t1 <;> exact id
      | done y e =>
        cases walk isFloat json cb0 fuel (h.read s ++ [x]) t1 with
        | panic => exact id
        | done t' e' => exact fun q => ⟨⟨q.1.1, g.trans q.1.2 sub⟩, q.2⟩
    rw [walkMem, walk]
    cases GetType isFloat json (h.read s) with
    | panic => trivial
    | err e => exact ⟨⟨hr, .refl _ _⟩, rfl⟩
    | ok ty =>
      have leaf : IterRel (fun x t' => R x.1 x.2 t' ∧ Frame s.room h x.1)
          (match Get json (h.read s) with
            | .panic => .panic
            | .err e => .done (h, u) (some e)
            | .ok val =>
              match cb (h, u) ((h.read s).getLast?.getD []) val s with
              | .panic => .panic
              | .ret u _ e => .done u e)
          (match Get json (h.read s) with
            | .panic => .panic
            | .err e => .done t (some e)
            | .ok val =>
              match cb0 t ((h.read s).getLast?.getD []) val (h.read s) with
              | .panic => .panic
              | .ret u _ e => .done u e) := by
        cases Get json (h.read s) with
        | panic => trivial
        | err e => exact ⟨⟨hr, .refl _ _⟩, rfl⟩
        | ok val =>
          have := hcb h u t ((h.read s).getLast?.getD []) val s hr hs
          simp only
          cases e1 : cb (h, u) ((h.read s).getLast?.getD []) val s <;>
            cases e2 : cb0 t ((h.read s).getLast?.getD []) val (h.read s) <;> rw [e1, e2] at this <;> try exact this.elim
          · exact ⟨⟨this.1.1, this.1.2.mono fun _ _ _ h => h.elim⟩, this.2.2⟩
          · trivial
      cases ty with
      | object =>
        simp only
        refine iterateKV_sim (S := fun (x : Heap × σ) (t' : τ) => R x.1 x.2 t' ∧ Frame s.room h x.1) ?_ _ ⟨hr, .refl _ _⟩
        rintro ⟨h1, u1⟩ t1 k v ⟨hr1, f⟩
        have := child k h1 u1 t1 hr1 f
        simp only
        revert this
        cases walkMem grow isFloat json cb fuel (h1.append grow s k).2 ((h1.append grow s k).1, u1) with
        | panic => cases walk isFloat json cb0 fuel (h.read s ++ [k]) t1 <;> first | exact id | exact False.elim
        | done y e =>
          cases walk isFloat json cb0 fuel (h.read s ++ [k]) t1 with
          | panic => exact False.elim
          | done t' e' =>
            rintro ⟨q, rfl⟩
            cases e <;> exact ⟨q, rfl, rfl⟩
      | array =>
        simp only
        have H := iterateArray_sim (json := json) (S := fun (x : (Heap × σ) × Nat) (t' : τ × Nat) => (R x.1.1 x.1.2 t'.1 ∧ Frame s.room h x.1.1) ∧ x.2 = t'.2)
          (c1 := fun (u : (Heap × σ) × Nat) _ =>
            match walkMem grow isFloat json cb fuel (u.1.1.append grow s (itoa u.2)).2 ((u.1.1.append grow s (itoa u.2)).1, u.1.2) with
            | .panic => .panic
            | .done u' (some e) => .ret (u', u.2) false (some e)
            | .done u' none => .ret (u', u.2 + 1) true none)
          (c2 := fun (u : τ × Nat) _ =>
            match walk isFloat json cb0 fuel (h.read s ++ [itoa u.2]) u.1 with
            | .panic => .panic
            | .done u' (some e) => .ret (u', u.2) false (some e)
            | .done u' none => .ret (u', u.2 + 1) true none) (by
          rintro ⟨⟨h1, u1⟩, n⟩ ⟨t1, m⟩ v ⟨⟨hr1, f⟩, e⟩
          simp only at hr1 f e
          subst e
          have := child (itoa n) h1 u1 t1 hr1 f
          simp only
          revert this
          cases walkMem grow isFloat json cb fuel (h1.append grow s (itoa n)).2 ((h1.append grow s (itoa n)).1, u1) with
          | panic => cases walk isFloat json cb0 fuel (h.read s ++ [itoa n]) t1 <;> first | exact id | exact False.elim
          | done y e =>
            cases walk isFloat json cb0 fuel (h.read s ++ [itoa n]) t1 with
            | panic => exact False.elim
            | done t' e' =>
              rintro ⟨q, rfl⟩
              cases e <;> exact ⟨⟨q, rfl⟩, rfl, rfl⟩) (h.read s) (u := ((h, u), 0)) (w := (t, 0)) ⟨⟨hr, .refl _ _⟩, rfl⟩
        revert H
        generalize IterateArray (σ := (Heap × σ) × Nat) _ _ _ _ = r1
        generalize IterateArray (σ := τ × Nat) _ _ _ _ = r2
        intro H
        cases r1 <;> cases r2 <;> try exact H.elim
        · exact ⟨H.1.1, H.2⟩
        · trivial
      | string => exact leaf
      | number => exact leaf
      | boolean => exact leaf
      | null => exact leaf

/-- A callback that uses its path only while it runs. -/
def reading {σ : Type} (cb0 : σ → Bytes → Bytes → List Bytes → Cb σ) (x : Heap × σ) (k v : Bytes) (p : Slice) : Cb (Heap × σ) :=
  match cb0 x.2 k v (x.1.read p) with
  | .panic => .panic
  | .ret u b e => .ret (x.1, u) b e

theorem walks_start (grow : Nat → Nat) (h : Heap) : Slice.walks grow ⟨0, 0, 0, 0⟩ h := ⟨⟨Nat.le_refl _, Nat.zero_le _⟩, rfl, rfl⟩

/-- **C77 (partial)** While the callback runs, its path is right: a callback that does not keep the
path makes `Walk` do what the model on values does, which C57 describes.  No slice of the caller
changes.  Missing: callbacks that keep the path, see `C77_kept_partial` and `C77_fails`. -/
theorem C77_walk_partial {σ : Type} (grow : Nat → Nat) (isFloat : Bytes → Bool) (json : Bytes)
    (cb0 : σ → Bytes → Bytes → List Bytes → Cb σ) (h : Heap) (u : σ) :
    match WalkMem grow isFloat json (reading cb0) (h, u) with
    | .panic => Walk isFloat json cb0 u = .panic
    | .done x e => Walk isFloat json cb0 u = .done x.2 e ∧ ∀ t : Slice, t.ok h → x.1.read t = h.read t := by
  have := walk_sim (grow := grow) (isFloat := isFloat) (json := json) (cb := reading cb0) (cb0 := cb0) (R := fun _ u t => u = t)
    (by
      rintro h u t k v s rfl _
      unfold reading
      simp only
      cases cb0 u k v (h.read s) with
      | panic => trivial
      | ret u b e => exact ⟨⟨rfl, .refl _ _⟩, rfl, rfl⟩)
    (fun _ _ _ _ _ h _ => h) (json.length + 1) ⟨0, 0, 0, 0⟩ h u u (walks_start grow h) rfl
  unfold WalkMem Walk
  rw [show h.read ⟨0, 0, 0, 0⟩ = [] by simp [Heap.read]] at this
  cases e1 : walkMem grow isFloat json (reading cb0) (json.length + 1) ⟨0, 0, 0, 0⟩ (h, u) <;>
    cases e2 : walk isFloat json cb0 (json.length + 1) [] u <;> rw [e1, e2] at this <;> try exact this.elim
  · obtain ⟨⟨rfl, f⟩, rfl⟩ := this
    exact ⟨rfl, fun t ht => f.read ht fun i _ _ hr => by have := hr.2; simp at this⟩

/-- The callback that keeps every path it gets. -/
def keeping (x : Heap × List Slice) (_ _ : Bytes) (p : Slice) : Cb (Heap × List Slice) := .ret (x.1, x.2 ++ [p]) true none
/-- The same on values. -/
def keeping0 (u : List (List Bytes)) (_ _ : Bytes) (p : List Bytes) : Cb (List (List Bytes)) := .ret (u ++ [p]) true none

/-- **C77 (partial)** A kept path still reads as it did when it was handed out if it is not longer
than the shortest path slice with spare capacity.  Missing: longer paths (`C77_fails`). -/
theorem C77_kept_partial (grow : Nat → Nat) (m : Nat) (hm : ∀ n, n < m → capOf grow n = n) (isFloat : Bytes → Bool) (json : Bytes) (h : Heap) :
    match WalkMem grow isFloat json keeping (h, []) with
    | .panic => Walk isFloat json keeping0 [] = .panic
    | .done x e => ∃ ps, Walk isFloat json keeping0 [] = .done ps e ∧ x.2.length = ps.length ∧
        ∀ (i : Nat) (s : Slice) (p : List Bytes), x.2[i]? = some s → ps[i]? = some p → s.len = p.length ∧ (p.length ≤ m → x.1.read s = p) := by
  have := walk_sim (grow := grow) (isFloat := isFloat) (json := json) (cb := keeping) (cb0 := keeping0)
    (R := fun h u t => u.length = t.length ∧ ∀ (i : Nat) (s : Slice) (p : List Bytes), u[i]? = some s → t[i]? = some p →
      s.ok h ∧ s.off = 0 ∧ s.len = p.length ∧ (p.length ≤ m → h.read s = p))
    (by
      rintro h u t k v s ⟨hl, hr⟩ hs
      refine ⟨⟨⟨by simp [hl], fun i s' p h1 h2 => ?_⟩, .refl _ _⟩, rfl, rfl⟩
      simp only at h1
      rcases Nat.lt_or_ge i u.length with hi | hi
      · rw [List.getElem?_append_left hi] at h1
        rw [List.getElem?_append_left (by omega)] at h2
        exact hr i s' p h1 h2
      · rw [List.getElem?_append_right hi] at h1
        rw [List.getElem?_append_right (by omega), ← hl] at h2
        cases hj : i - u.length with
        | zero =>
          rw [hj] at h1 h2
          simp only [List.getElem?_cons_zero, Option.some.injEq] at h1 h2
          subst h1 h2
          exact ⟨hs.ok, hs.off, (read_length hs.ok).symm, fun _ => rfl⟩
        | succ j => rw [hj] at h1; simp at h1)
    (by
      rintro h u t x s ⟨hl, hr⟩ hs
      refine ⟨hl, fun i s' p h1 h2 => ?_⟩
      obtain ⟨r1, r2, r3, r4⟩ := hr i s' p h1 h2
      have f := append_frame grow h s x
      refine ⟨f.ok r1, r2, r3, fun hle => (f.read r1 fun j a b hsp => ?_).trans (r4 hle)⟩
      have h3 := hs.cap
      have h4 := hs.off
      have h5 := hsp.2
      have h6 : m ≤ s.len := by
        rcases Nat.lt_or_ge s.len m with hlt | hge
        · have := hm _ hlt; omega
        · exact hge
      omega) (json.length + 1) ⟨0, 0, 0, 0⟩ h [] [] (walks_start grow h) ⟨rfl, fun i s p h1 => by simp at h1⟩
  unfold WalkMem Walk
  rw [show h.read ⟨0, 0, 0, 0⟩ = [] by simp [Heap.read]] at this
  cases e1 : walkMem grow isFloat json keeping (json.length + 1) ⟨0, 0, 0, 0⟩ (h, []) <;>
    cases e2 : walk isFloat json keeping0 (json.length + 1) [] [] <;> rw [e1, e2] at this <;> try exact this.elim
  · obtain ⟨⟨⟨hl, hr⟩, f⟩, rfl⟩ := this
    exact ⟨_, rfl, hl, fun i s p h1 h2 => (hr i s p h1 h2).2.2⟩

/-- With capacities that double, kept paths of up to three entries last. -/
theorem C77_kept_doubling (n : Nat) (h : n < 3) : capOf doubling n = n := by
  match n, h with
  | 0, _ => rfl
  | 1, _ => rfl
  | 2, _ => rfl

/-- A document with leaves at depths three and four. -/
def Sample.deep : Bytes := str "{\"a\":{\"b\":{\"c\":{\"x\":true,\"y\":true},\"d\":null}}}"

/-- The paths kept from a walk, as they read when it is over. -/
def keptPaths (json : Bytes) : List (List Bytes) :=
  match WalkMem doubling (fun _ => false) json keeping ([], []) with
  | .done x _ => x.2.map x.1.read
  | .panic => []

example : (keptPaths Sample.deep)[2]? = some [str "a", str "b", str "d"] := by decide +kernel

/-- **C77 is false**: the first kept path is `a b c x` when it is handed out and `a b c y` when the
walk is over. -/
theorem C77_fails : Walk (fun _ => false) Sample.deep keeping0 [] =
      .done [[str "a", str "b", str "c", str "x"], [str "a", str "b", str "c", str "y"], [str "a", str "b", str "d"]] none ∧
    keptPaths Sample.deep = [[str "a", str "b", str "c", str "y"], [str "a", str "b", str "c", str "y"], [str "a", str "b", str "d"]] := by
  refine ⟨?_, ?_⟩ <;> decide +kernel

/-! ### Scheme -/

/-- One call on a scheme in memory. -/
def SchemeMem.step (grow : Nat → Nat) (x : Heap × SchemeMem) : SchemeOp → Heap × SchemeMem
  | .add k => let r := x.2.Add grow k x.1; (r.1, r.2.1)
  | .remove k => let r := x.2.Remove k x.1; (r.1, r.2.1)
  | .save => (x.1, x.2.Save)
  | .restore => (x.1, x.2.Restore)

def SchemeMem.run (grow : Nat → Nat) (x : Heap × SchemeMem) (ops : List SchemeOp) : Heap × SchemeMem := ops.foldl (SchemeMem.step grow) x

/-- The scheme in memory and the scheme on values, after a history that began with the slice `args`
in memory `h0`. -/
structure SchemeRel (h0 : Heap) (args : Slice) (x : Heap × SchemeMem) (s : Scheme) : Prop where
  frame : Frame args.room h0 x.1
  kok : x.2.keys.ok x.1
  ook : x.2.originalKeys.ok x.1
  keys : x.1.read x.2.keys = s.keys
  orig : x.1.read x.2.originalKeys = s.originalKeys
  apart : ∀ i, x.2.originalKeys.off ≤ i → i < x.2.originalKeys.off + x.2.originalKeys.len → ¬ x.2.keys.room x.2.originalKeys.blk i
  kin : ∀ b i, b < h0.length → x.2.keys.room b i → args.room b i
  oin : ∀ b i, b < h0.length → x.2.originalKeys.room b i → args.room b i

theorem SchemeRel.step {h0 : Heap} {args : Slice} {x : Heap × SchemeMem} {s : Scheme} (grow : Nat → Nat) (r : SchemeRel h0 args x s) (op : SchemeOp) :
    SchemeRel h0 args (SchemeMem.step grow x op) (s.step op) := by
  obtain ⟨h, m⟩ := x
  have hk := r.keys
  cases op with
  | save =>
    exact ⟨r.frame, r.kok, r.kok, r.keys, r.keys, fun i a b => Slice.not_room i a b, r.kin, r.kin⟩
  | restore =>
    exact ⟨r.frame, r.ook, r.ook, r.orig, r.orig, fun i a b => Slice.not_room i a b, r.oin, r.oin⟩
  | add k =>
    simp only [SchemeMem.step, SchemeMem.Add, Scheme.step, Scheme.Add]
    simp only at hk
    rw [hk]
    split
    · exact r
    · have f := append_frame grow h m.keys k
      have fr : Frame args.room h0 (h.append grow m.keys k).1 := r.frame.trans f fun b i hb hs => r.kin b i hb (Slice.spot_room hs)
      have hsl := append_slice (grow := grow) (h := h) (s := m.keys) (x := k)
      refine ⟨fr, slice_append_ok r.kok, f.ok r.ook, ?_, ?_, ?_, ?_, r.oin⟩
      · exact (append_read r.kok).trans (by rw [hk])
      · exact (f.read r.ook fun i a b hs => r.apart i a b (Slice.spot_room hs)).trans r.orig
      · intro i a b hroom
        simp only at hroom a b
        rcases hsl with e | ⟨hc, e⟩
        · have h1 := hroom.1
          rw [e] at h1
          have h2 := r.ook.fit
          have h3 := r.ook.le
          simp only at h2 h3
          rw [block_none (by omega)] at h2
          simp only [List.length_nil] at h2
          omega
        · rw [e] at hroom
          exact r.apart i a b ⟨hroom.1, by have := hroom.2.1; simp only at this ⊢; omega, hroom.2.2⟩
      · intro b i hb hroom
        simp only at hroom
        rcases hsl with e | ⟨hc, e⟩
        · have h1 := hroom.1
          have h2 := r.frame.len
          simp only at h2
          omega
        · rw [e] at hroom
          exact r.kin b i hb ⟨hroom.1, by have := hroom.2.1; simp only at this ⊢; omega, hroom.2.2⟩
  | remove k =>
    simp only [SchemeMem.step, SchemeMem.Remove, Scheme.step, Scheme.Remove]
    simp only at hk
    rw [hk]
    have hlen : s.keys.length = m.keys.len := by rw [← hk]; exact read_length r.kok
    have hle : (s.keys.filter (· != k)).length ≤ m.keys.len := by rw [← hlen]; exact List.length_filter_le _ _
    have f : Frame (fun _ _ => False) h (h ++ [s.keys.filter (· != k) ++ List.replicate (m.keys.len - (s.keys.filter (· != k)).length) []]) :=
      ⟨by simp, fun b hb => by rw [block_old hb], fun b i hb _ => by rw [block_old hb]⟩
    refine ⟨r.frame.trans f fun _ _ _ h => h.elim, ⟨hle, ?_⟩, f.ok r.ook, ?_, ?_, ?_, ?_, r.oin⟩
    · show 0 + m.keys.len ≤ _
      rw [block_new]; simp; omega
    · show List.take _ (List.drop 0 (Heap.block _ h.length)) = _
      rw [block_new]; simp
    · exact (f.read r.ook fun _ _ _ h => h.elim).trans r.orig
    · intro i a b hroom
      have h1 : m.originalKeys.blk = h.length := hroom.1
      have h2 := r.ook.fit
      have h3 := r.ook.le
      simp only at h2 h3 a b
      rw [block_none (by omega)] at h2
      simp only [List.length_nil] at h2
      omega
    · intro b i hb hroom
      have h1 : b = h.length := hroom.1
      have h2 := r.frame.len
      simp only at h2
      omega

/-- **C78** The keys of a scheme, its saved keys and the answers of `Add` and `Remove` are over every
history what C48 says, however the slice it was made from lies in memory and shares it; and the
calls change no slice of the caller that does not reach into the spare capacity of that one. -/
theorem C78_scheme_memory (grow : Nat → Nat) (h : Heap) (args : Slice) (ha : args.ok h) (ops : List SchemeOp) :
    let x := SchemeMem.run grow (h, MakeSchemeMem args) ops
    let s := (MakeScheme (h.read args)).run ops
    x.1.read x.2.keys = s.keys ∧ x.1.read x.2.originalKeys = s.originalKeys ∧
    (∀ k, (x.2.Add grow k x.1).2.2 = (s.Add k).2 ∧ (x.2.Remove k x.1).2.2 = (s.Remove k).2) ∧
    ∀ t : Slice, t.ok h → (∀ i, t.off ≤ i → i < t.off + t.len → ¬ (t.blk = args.blk ∧ args.off + args.len ≤ i ∧ i < args.off + args.cap)) →
      x.1.read t = h.read t := by
  have start : SchemeRel h args (h, MakeSchemeMem args) (MakeScheme (h.read args)) :=
    ⟨.refl _ _, ha, ha, rfl, rfl, fun i a b => Slice.not_room i a b, fun _ _ _ h => h, fun _ _ _ h => h⟩
  have key : ∀ (ops : List SchemeOp) (x : Heap × SchemeMem) (s : Scheme), SchemeRel h args x s →
      SchemeRel h args (SchemeMem.run grow x ops) (s.run ops) := by
    intro ops
    induction ops with
    | nil => intro x s r; exact r
    | cons op ops ih => intro x s r; exact ih _ _ (r.step grow op)
  have r := key ops _ _ start
  refine ⟨r.keys, r.orig, fun k => ⟨?_, ?_⟩, fun t ht hr => r.frame.read ht hr⟩
  · unfold SchemeMem.Add Scheme.Add
    rw [r.keys]
    split <;> rfl
  · unfold SchemeMem.Remove Scheme.Remove
    simp only [r.keys]

example : Sample.args1.ok Sample.args ∧
    (let x := SchemeMem.run doubling (Sample.args, MakeSchemeMem Sample.args1) [.add (str "x"), .add (str "y"), .save, .remove (str "x"), .restore]
     x.1.read x.2.keys = [str "a", str "x", str "y"]) := ⟨⟨by decide, by decide +kernel⟩, by decide +kernel⟩

/-! ### Two schemes -/

/-- The spare cells of `p` are no cells of `q`. -/
def Slice.clearOf (p q : Slice) : Prop := ∀ b i, p.room b i → ¬ (b = q.blk ∧ q.off ≤ i ∧ i < q.off + q.cap)

/-- Slices of different arrays, one of them new. -/
theorem clearOf_fresh {h : Heap} {p q : Slice} (hq : q.ok h) (hp : p.blk = h.length) : p.clearOf q ∧ q.clearOf p := by
  have key : ∀ i, ¬ (q.blk = h.length ∧ q.off ≤ i ∧ i < q.off + q.cap) := by
    rintro i ⟨h1, h2, h3⟩
    have h4 := hq.fit
    rw [block_none (by omega)] at h4
    simp only [List.length_nil] at h4
    omega
  refine ⟨fun b i hr hc => key i ⟨by rw [← hc.1, hr.1, hp], hc.2⟩, fun b i hr hc => key i ⟨?_, ?_, hr.2.2⟩⟩
  · rw [← hr.1, hc.1, hp]
  · have := hr.2.1; omega

/-- A slice that is guarded against appending to `p` reads the same and stays so. -/
theorem clearOf_append {grow : Nat → Nat} {h : Heap} {p q : Slice} {x : Bytes} (hq : q.ok h) (c : p.clearOf q ∧ q.clearOf p) :
    (h.append grow p x).1.read q = h.read q ∧ (h.append grow p x).2.clearOf q ∧ q.clearOf (h.append grow p x).2 := by
  refine ⟨(append_frame grow h p x).read hq fun i a b hs => c.1 _ _ (Slice.spot_room hs) ⟨rfl, a, by have := hq.le; omega⟩, ?_⟩
  rcases append_slice (grow := grow) (h := h) (s := p) (x := x) with e | ⟨hlt, e⟩
  · exact clearOf_fresh hq e
  · rw [e]
    exact ⟨fun b i hr hc => c.1 b i ⟨hr.1, by have := hr.2.1; simp only at this; omega, hr.2.2⟩ hc, fun b i hr hc => c.2 b i hr hc⟩

/-- Two schemes in one memory, none of whose slices has spare cells in the other's. -/
structure TwoRel (h : Heap) (a b : SchemeMem) (s t : Scheme) : Prop where
  ra : SchemeRel [] ⟨0, 0, 0, 0⟩ (h, a) s
  rb : SchemeRel [] ⟨0, 0, 0, 0⟩ (h, b) t
  kk : a.keys.clearOf b.keys ∧ b.keys.clearOf a.keys
  ko : a.keys.clearOf b.originalKeys ∧ b.originalKeys.clearOf a.keys
  ok : a.originalKeys.clearOf b.keys ∧ b.keys.clearOf a.originalKeys
  oo : a.originalKeys.clearOf b.originalKeys ∧ b.originalKeys.clearOf a.originalKeys

theorem TwoRel.swap {h : Heap} {a b : SchemeMem} {s t : Scheme} (r : TwoRel h a b s t) : TwoRel h b a t s :=
  ⟨r.rb, r.ra, r.kk.symm, r.ok.symm, r.ko.symm, r.oo.symm⟩

theorem rel_other {h h' : Heap} {A : Nat → Nat → Prop} {b : SchemeMem} {t : Scheme} (r : SchemeRel [] ⟨0, 0, 0, 0⟩ (h, b) t) (f : Frame A h h')
    (h1 : h'.read b.keys = h.read b.keys) (h2 : h'.read b.originalKeys = h.read b.originalKeys) : SchemeRel [] ⟨0, 0, 0, 0⟩ (h', b) t where
  frame := ⟨Nat.zero_le _, fun _ hb => absurd hb (Nat.not_lt_zero _), fun _ _ hb => absurd hb (Nat.not_lt_zero _)⟩
  kok := f.ok r.kok
  ook := f.ok r.ook
  keys := h1.trans r.keys
  orig := h2.trans r.orig
  apart := r.apart
  kin := fun _ _ hb => absurd hb (Nat.not_lt_zero _)
  oin := fun _ _ hb => absurd hb (Nat.not_lt_zero _)

theorem TwoRel.step {h : Heap} {a b : SchemeMem} {s t : Scheme} (grow : Nat → Nat) (r : TwoRel h a b s t) (op : SchemeOp) :
    TwoRel (SchemeMem.step grow (h, a) op).1 (SchemeMem.step grow (h, a) op).2 b (s.step op) t := by
  have ra := r.ra.step grow op
  cases op with
  | save => exact ⟨ra, r.rb, r.kk, r.ko, r.kk, r.ko⟩
  | restore => exact ⟨ra, r.rb, r.ok, r.oo, r.ok, r.oo⟩
  | add k =>
    revert ra
    simp only [SchemeMem.step, SchemeMem.Add]
    split
    · intro ra; exact ⟨ra, r.rb, r.kk, r.ko, r.ok, r.oo⟩
    · intro ra
      have f := append_frame grow h a.keys k
      obtain ⟨e1, c1⟩ := clearOf_append (grow := grow) (x := k) r.rb.kok r.kk
      obtain ⟨e2, c2⟩ := clearOf_append (grow := grow) (x := k) r.rb.ook r.ko
      exact ⟨ra, rel_other r.rb f e1 e2, c1, c2, r.ok, r.oo⟩
  | remove k =>
    have f : ∀ l, Frame (fun _ _ => False) h (h ++ [l]) :=
      fun l => ⟨by simp, fun b hb => by rw [block_old hb], fun b i hb _ => by rw [block_old hb]⟩
    exact ⟨ra, rel_other r.rb (f _) ((f _).read r.rb.kok fun _ _ _ h => h) ((f _).read r.rb.ook fun _ _ _ h => h),
      clearOf_fresh r.rb.kok rfl, clearOf_fresh r.rb.ook rfl, r.ok, r.oo⟩

/-- Calls on two schemes in turn: `true` for the first one. -/
def twoStep (grow : Nat → Nat) (x : Heap × SchemeMem × SchemeMem) (op : Bool × SchemeOp) : Heap × SchemeMem × SchemeMem :=
  if op.1 then
    let r := SchemeMem.step grow (x.1, x.2.1) op.2
    (r.1, r.2, x.2.2)
  else
    let r := SchemeMem.step grow (x.1, x.2.2) op.2
    (r.1, x.2.1, r.2)

/-- The calls on one of them. -/
def callsOf (first : Bool) (ops : List (Bool × SchemeOp)) : List SchemeOp := (ops.filter (·.1 == first)).map Prod.snd

/-- **C79 (partial)** Two schemes do not disturb each other: after any calls on the two in turn, each
has the keys and saved keys of its own calls, when the slices they were made from have no spare
capacity - such as keys that are written out.  Missing: slices with spare capacity (`C79_fails`). -/
theorem C79_independent_partial (grow : Nat → Nat) (h : Heap) (p q : Slice) (hp : p.ok h) (hq : q.ok h) (fp : p.len = p.cap) (fq : q.len = q.cap)
    (ops : List (Bool × SchemeOp)) :
    let x := ops.foldl (twoStep grow) (h, MakeSchemeMem p, MakeSchemeMem q)
    x.1.read x.2.1.keys = ((MakeScheme (h.read p)).run (callsOf true ops)).keys ∧
    x.1.read x.2.1.originalKeys = ((MakeScheme (h.read p)).run (callsOf true ops)).originalKeys ∧
    x.1.read x.2.2.keys = ((MakeScheme (h.read q)).run (callsOf false ops)).keys ∧
    x.1.read x.2.2.originalKeys = ((MakeScheme (h.read q)).run (callsOf false ops)).originalKeys := by
  have one : ∀ r : Slice, r.ok h → SchemeRel [] ⟨0, 0, 0, 0⟩ (h, MakeSchemeMem r) (MakeScheme (h.read r)) := fun r hr =>
    ⟨⟨Nat.zero_le _, fun _ hb => absurd hb (Nat.not_lt_zero _), fun _ _ hb => absurd hb (Nat.not_lt_zero _)⟩, hr, hr, rfl, rfl,
      fun i a b => Slice.not_room i a b, fun _ _ hb => absurd hb (Nat.not_lt_zero _), fun _ _ hb => absurd hb (Nat.not_lt_zero _)⟩
  have no : ∀ r u : Slice, r.len = r.cap → r.clearOf u := fun r u e b i hr => absurd hr.2 (by omega)
  have start : TwoRel h (MakeSchemeMem p) (MakeSchemeMem q) (MakeScheme (h.read p)) (MakeScheme (h.read q)) :=
    ⟨one p hp, one q hq, ⟨no _ _ fp, no _ _ fq⟩, ⟨no _ _ fp, no _ _ fq⟩, ⟨no _ _ fp, no _ _ fq⟩, ⟨no _ _ fp, no _ _ fq⟩⟩
  have key : ∀ (ops : List (Bool × SchemeOp)) (x : Heap × SchemeMem × SchemeMem) (s t : Scheme), TwoRel x.1 x.2.1 x.2.2 s t →
      TwoRel (ops.foldl (twoStep grow) x).1 (ops.foldl (twoStep grow) x).2.1 (ops.foldl (twoStep grow) x).2.2
        (s.run (callsOf true ops)) (t.run (callsOf false ops)) := by
    intro ops
    induction ops with
    | nil => intro x s t r; exact r
    | cons op ops ih =>
      intro x s t r
      obtain ⟨b, op⟩ := op
      cases b with
      | true => exact ih (twoStep grow x (true, op)) (s.step op) t (r.step grow op)
      | false => exact ih (twoStep grow x (false, op)) s (t.step op) (r.swap.step grow op).swap
  have r := key ops (h, MakeSchemeMem p, MakeSchemeMem q) _ _ start
  exact ⟨r.ra.keys, r.ra.orig, r.rb.keys, r.rb.orig⟩

example : Sample.args0.len = Sample.args0.cap ∧
    (let x := [(true, SchemeOp.add (str "x")), (false, .add (str "y")), (true, .save)].foldl (twoStep doubling)
      (Sample.args, MakeSchemeMem Sample.args0, MakeSchemeMem Sample.args0)
     x.1.read x.2.1.keys = [str "a", str "b", str "c", str "x"] ∧ x.1.read x.2.2.keys = [str "a", str "b", str "c", str "y"]) := by
  refine ⟨rfl, ?_, ?_⟩ <;> decide +kernel

/-- **C79 is false** for two schemes made from one slice with spare capacity. -/
theorem C79_fails :
    let x := [(true, SchemeOp.add (str "x")), (false, .add (str "y"))].foldl (twoStep doubling)
      (Sample.args, MakeSchemeMem Sample.args1, MakeSchemeMem Sample.args1)
    x.1.read x.2.1.keys = [str "a", str "y"] := by decide +kernel

/-! ### Key lists that were handed out -/

/-- **C80 (partial)** A key list that `GetCurrentKeys` handed out reads the same after any further
calls, as long as `Restore` is not among them.  Missing: `Restore` (`C80_fails`). -/
theorem C80_handed_out_partial (grow : Nat → Nat) (h : Heap) (m : SchemeMem) (hm : m.keys.ok h) (ops : List SchemeOp)
    (hno : ∀ op ∈ ops, op matches .restore → False) :
    (SchemeMem.run grow (h, m) ops).1.read m.keys = h.read m.keys := by
  have key : ∀ (ops : List SchemeOp) (x : Heap × SchemeMem), m.keys.ok x.1 →
      (∀ i, m.keys.off ≤ i → i < m.keys.off + m.keys.len → ¬ x.2.keys.room m.keys.blk i) →
      (∀ op ∈ ops, op matches .restore → False) → (SchemeMem.run grow x ops).1.read m.keys = x.1.read m.keys := by
    intro ops
    induction ops with
    | nil => intro x _ _ _; rfl
    | cons op ops ih =>
      rintro ⟨h, n⟩ ho hr hno
      have hno' := fun o ho => hno o (List.mem_cons_of_mem _ ho)
      have h1 := hno op List.mem_cons_self
      have empty : h.length ≤ m.keys.blk → m.keys.len = 0 := by
        intro hle
        have h2 := ho.fit
        have h3 := ho.le
        rw [block_none hle] at h2
        simp only [List.length_nil] at h2
        omega
      cases op with
      | restore => exact absurd rfl h1
      | save => exact ih (h, n.Save) ho hr hno'
      | add k =>
        show (SchemeMem.run grow (SchemeMem.step grow (h, n) (.add k)) ops).1.read m.keys = _
        simp only [SchemeMem.step, SchemeMem.Add]
        split
        · exact ih _ ho hr hno'
        · have f := append_frame grow h n.keys k
          rw [ih _ (f.ok ho) ?_ hno']
          · exact f.read ho fun i a b hs => hr i a b (Slice.spot_room hs)
          · intro i a b hroom
            simp only at hroom
            rcases append_slice (grow := grow) (h := h) (s := n.keys) (x := k) with e | ⟨hc, e⟩
            · have := empty (by have := hroom.1; omega)
              omega
            · rw [e] at hroom
              exact hr i a b ⟨hroom.1, by have := hroom.2.1; simp only at this ⊢; omega, hroom.2.2⟩
      | remove k =>
        have f : ∀ l, Frame (fun _ _ => False) h (h ++ [l]) :=
          fun l => ⟨by simp, fun b hb => by rw [block_old hb], fun b i hb _ => by rw [block_old hb]⟩
        show (SchemeMem.run grow (SchemeMem.step grow (h, n) (.remove k)) ops).1.read m.keys = _
        simp only [SchemeMem.step, SchemeMem.Remove]
        rw [ih _ ((f _).ok ho) ?_ hno']
        · exact (f _).read ho fun _ _ _ h => h
        · intro i a b hroom
          have h2 : m.keys.blk = h.length := hroom.1
          have := empty (by omega)
          omega
  exact key ops _ hm (fun i a b => Slice.not_room i a b) hno

example :
    let x := SchemeMem.run doubling ([[str "a"]], MakeSchemeMem ⟨0, 0, 1, 1⟩) [.add (str "x"), .add (str "y"), .save]
    let y := SchemeMem.run doubling x [.add (str "z"), .remove (str "x"), .add (str "w")]
    x.2.keys.len < x.2.keys.cap ∧ y.1.read x.2.keys = [str "a", str "x", str "y"] ∧ y.1.read y.2.keys = [str "a", str "y", str "z", str "w"] := by
  refine ⟨?_, ?_, ?_⟩ <;> decide +kernel

/-- **C80 is false** with `Restore`: the list `a x y z` that was handed out becomes `a x y w`. -/
theorem C80_fails :
    let x := SchemeMem.run doubling ([[str "a"]], MakeSchemeMem ⟨0, 0, 1, 1⟩) [.add (str "x"), .add (str "y"), .save, .add (str "z")]
    let y := SchemeMem.run doubling x [.restore, .add (str "w")]
    x.1.read x.2.keys = [str "a", str "x", str "y", str "z"] ∧ y.1.read x.2.keys = [str "a", str "x", str "y", str "w"] := by
  refine ⟨?_, ?_⟩ <;> decide +kernel

end Jin
