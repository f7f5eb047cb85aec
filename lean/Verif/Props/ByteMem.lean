import Verif.Proof.ByteMem
/-!
# Props.ByteMem — C93: editing a document never writes to the caller's memory
-/

namespace Jin
open Spec
variable {h : BHeap} {json : BSlice} {grow : Nat → Nat} {path : List Bytes}

/-- What a call `f(json, …)` that leaves result `r` does to memory `h`, where `m` is the result on
plain bytes.  The arrays that were there keep all their bytes, those of the document and its spare
capacity among them.  On success the result is a slice of a new array, which it fills; with an
error it is the slice that was given.  Its bytes and the error are those of `m`. -/
def Apart (h : BHeap) (json : BSlice) (r : MutS × BHeap) (m : Mut) : Prop :=
  (∃ new, r.2 = h ++ new) ∧
  match r.1 with
  | .panic => m = .panic
  | .done s none => h.length ≤ s.blk ∧ s.cap = s.len ∧ s.ok r.2 ∧ m = .done (r.2.read s) none
  | .done s (some e) => s = json ∧ m = .done (h.read json) (some e)

theorem apart_err {e : Err} : Apart h json (.done json (some e), h) (.done (h.read json) (some e)) :=
  ⟨⟨[], by simp⟩, rfl, rfl⟩

theorem apart_panic : Apart h json (.panic, h) .panic := ⟨⟨[], by simp⟩, rfl⟩

theorem apart_more {new : List Bytes} {r : MutS × BHeap} {m : Mut} (hj : json.ok h) (ha : Apart (h ++ new) json r m) : Apart h json r m := by
  obtain ⟨⟨n, e⟩, hm⟩ := ha
  refine ⟨⟨new ++ n, by rw [e, List.append_assoc]⟩, ?_⟩
  cases hr : r.1 with
  | panic => rw [hr] at hm; exact hm
  | done s er =>
    rw [hr] at hm
    cases er with
    | none =>
      obtain ⟨h1, h2, h3, h4⟩ := hm
      exact ⟨by simp only [List.length_append] at h1; omega, h2, h3, h4⟩
    | some er =>
      obtain ⟨h1, h2⟩ := hm
      exact ⟨h1, by rw [h2, read_append hj]⟩

theorem apart_replace {v : BSlice} {start stop : Int} (hj : json.ok h) (hv : v.ok h) (hr : start ≤ stop ∨ start ≤ json.len) :
    Apart h json (MutS.ofReplace (replaceMem grow h json v start stop)) (Mut.ofOut (replace (h.read json) (h.read v) start stop)) := by
  have := replaceMem_spec (grow := grow) hj hv hr
  cases hb : replace (h.read json) (h.read v) start stop with
  | err e => rw [hb] at this; exact this.elim
  | panic =>
    rw [hb] at this
    obtain ⟨n, e⟩ := this
    rw [e]
    exact ⟨⟨n, rfl⟩, rfl⟩
  | ok b =>
    rw [hb] at this
    simp only at this
    rw [this]
    refine ⟨⟨_, rfl⟩, Nat.le_refl _, by simp [freshS], fresh_ok, ?_⟩
    show Mut.done b none = .done (BHeap.read (fresh h b 0) (freshS h b 0)) none
    rw [fresh_read]

/-- The same with a value that was put in a new array first. -/
theorem apart_val {new : List Bytes} {v : BSlice} {x : Bytes} {start stop : Int} (hj : json.ok h) (hv : v.ok (h ++ new))
    (hx : BHeap.read (h ++ new) v = x) (hr : start ≤ stop ∨ start ≤ json.len) :
    Apart h json (MutS.ofReplace (replaceMem grow (h ++ new) json v start stop)) (Mut.ofOut (replace (h.read json) x start stop)) := by
  have := apart_replace (grow := grow) (ok_append (k := new) hj) hv hr
  rw [hx, read_append hj] at this
  exact apart_more hj this

theorem apart_str {x : Bytes} {n : Nat} {start stop : Int} (hj : json.ok h) (hr : start ≤ stop ∨ start ≤ json.len) :
    Apart h json (MutS.ofReplace (replaceMem grow (fresh h x n) json (freshS h x n) start stop)) (Mut.ofOut (replace (h.read json) x start stop)) :=
  apart_val (x := x) hj fresh_ok fresh_read hr

theorem apart_bind {α : Type} {x : Out α} {f : α → MutS × BHeap} {g : α → Mut} (hf : ∀ a, x = .ok a → Apart h json (f a) (g a)) :
    Apart h json (MutS.bindOut h json x f) (Mut.bindOut (h.read json) x g) := by
  cases x with
  | ok a => exact hf a rfl
  | err e => exact apart_err
  | panic => exact apart_panic

theorem apart_value {v : BSlice} {start stop : Nat} (hj : json.ok h) (hv : v.ok h) (hle : start ≤ stop) :
    Apart h json (replaceValueMem grow h json v start stop) (replaceValue (h.read json) (h.read v) start stop) := by
  refine apart_bind fun q _ => ?_
  split
  · exact apart_replace hj hv (.inl (by omega))
  · exact apart_replace hj hv (.inl (by omega))

/-- **C93** `Set` leaves the memory of the document and of the new value alone. -/
theorem C93_set (grow : Nat → Nat) (v : BSlice) (path : List Bytes) (hj : json.ok h) (hv : v.ok h) :
    Apart h json (SetMem grow h json v path) (Set (h.read json) (h.read v) path) := by
  unfold SetMem Set
  split
  · exact apart_err
  · rename_i hlen
    have hp : path ≠ [] := by rintro rfl; exact hlen rfl
    exact apart_bind fun l hl => apart_value hj hv (core_shape hp hl).1.le

theorem setKey_step {key : Bytes} {ks i : Nat} (hj : json.ok h) (hks : ks ≤ i) :
    (setKeyBodyMem grow h json key ks i () = .goto (i + 1) () ∧ setKeyBody (h.read json) key ks i () = .goto (i + 1) ()) ∨
    (setKeyBodyMem grow h json key ks i () = .next () ∧ setKeyBody (h.read json) key ks i () = .next ()) ∨
    ∃ r m, setKeyBodyMem grow h json key ks i () = .ret r ∧ setKeyBody (h.read json) key ks i () = .ret m ∧ Apart h json r m := by
  unfold setKeyBodyMem setKeyBody
  cases (h.read json)[i]? with
  | none => exact .inr (.inr ⟨_, _, rfl, rfl, apart_panic⟩)
  | some c =>
    simp only
    split
    · exact .inl ⟨rfl, rfl⟩
    · split
      · exact .inr (.inr ⟨_, _, rfl, rfl, apart_str hj (.inl (by omega))⟩)
      · exact .inr (.inl ⟨rfl, rfl⟩)

theorem setKey_memLoop {key : Bytes} {ks : Nat} (hj : json.ok h) {hi : Nat} : ∀ (n i : Nat), hi - i ≤ n → ks ≤ i →
    match forUp hi (setKeyBodyMem grow h json key ks) i (), forUp hi (setKeyBody (h.read json) key ks) i () with
    | .ret r, .ret m => Apart h json r m
    | .done _, .done _ => True
    | _, _ => False := by
  intro n
  induction n with
  | zero =>
    intro i hn _
    rw [forUp, forUp, if_neg (by omega), if_neg (by omega)]
    trivial
  | succ n ih =>
    intro i hn hks
    rw [forUp, forUp]
    by_cases hi' : i < hi
    · rw [if_pos hi', if_pos hi']
      rcases setKey_step (grow := grow) (key := key) hj hks with ⟨e1, e2⟩ | ⟨e1, e2⟩ | ⟨r, m, e1, e2, ha⟩
      · rw [e1, e2]; exact ih _ (by omega) (by omega)
      · rw [e1, e2]; exact ih _ (by omega) (by omega)
      · rw [e1, e2]; exact ha
    · rw [if_neg hi', if_neg hi']
      trivial

/-- **C93** `SetKey` leaves the memory of the document alone. -/
theorem C93_setKey (grow : Nat → Nat) (key : Bytes) (path : List Bytes) (hj : json.ok h) :
    Apart h json (SetKeyMem grow h json key path) (SetKey (h.read json) key path) := by
  unfold SetKeyMem SetKey
  split
  · exact apart_err
  · split
    · exact apart_err
    · cases core (h.read json) false (path.dropLast ++ [key]) with
      | panic => exact apart_panic
      | ok _ => exact apart_err
      | err e =>
        simp only
        split
        · refine apart_bind fun l _ => ?_
          split
          · exact apart_panic
          · have := setKey_memLoop (grow := grow) (key := key) (ks := l.keyStart.toNat) hj (hi := l.start) _ _ (Nat.le_refl _) (Nat.le_refl _)
            revert this
            cases forUp l.start (setKeyBodyMem grow h json key l.keyStart.toNat) l.keyStart.toNat () <;>
              cases forUp l.start (setKeyBody (h.read json) key l.keyStart.toNat) l.keyStart.toNat ()
            · exact fun _ => apart_err
            · exact fun h => h.elim
            · exact fun h => h.elim
            · exact fun h => h
        · exact apart_err

theorem apart_addKeyValue (key : Bytes) (v : BSlice) (path : List Bytes) (hj : json.ok h) :
    Apart h json (addKeyValueBytes grow h json key v path) (addKeyValue (h.read json) key (h.read v) path) := by
  unfold addKeyValueBytes addKeyValue
  split
  · exact apart_err
  · refine apart_bind fun r _ => apart_bind fun b _ => ?_
    obtain ⟨start, stop⟩ := r
    simp only
    split
    · cases firstNS (h.read json) (start + 1) (stop - 1) with
      | none => exact apart_str hj (.inl (Int.le_refl _))
      | some _ =>
        simp only
        cases core (h.read json) false (path ++ [key]) with
        | panic => exact apart_panic
        | ok _ => exact apart_err
        | err e =>
          simp only
          split
          · exact apart_str hj (.inl (Int.le_refl _))
          · exact apart_err
    · exact apart_err

/-- **C93** `AddKeyValue` leaves the memory of the document and of the value alone. -/
theorem C93_addKeyValue (grow : Nat → Nat) (key : Bytes) (v : Option BSlice) (path : List Bytes) (hj : json.ok h) :
    Apart h json (AddKeyValueBytes grow h json key v path) (AddKeyValue (h.read json) key (v.map h.read) path) := by
  cases v with
  | some v => exact apart_addKeyValue key v path hj
  | none =>
    have := apart_addKeyValue (grow := grow) key (freshS h bNull (grow bNull.length)) path (ok_append (k := [bNull ++ List.replicate (grow bNull.length) 0]) hj)
    rw [read_append hj] at this
    have hr : BHeap.read (h ++ [bNull ++ List.replicate (grow bNull.length) 0]) (freshS h bNull (grow bNull.length)) = bNull := fresh_read
    rw [hr] at this
    exact apart_more hj this

/-- A comma and a value written into a new array of the right size. -/
theorem comma_block {v : BSlice} (hv : v.ok h) :
    BHeap.write (BHeap.write (h.make (v.len + 1) (v.len + 1)).1 h.length 0 [44]) h.length 1
      (BHeap.read (BHeap.write (h.make (v.len + 1) (v.len + 1)).1 h.length 0 [44]) v) = h ++ [44 :: h.read v] := by
  simp only [BHeap.make, write_last]
  rw [read_append hv]
  have := bread_length hv
  simp [List.replicate_succ, this]
  omega

/-- **C93** `Add` leaves the memory of the document and of the value alone. -/
theorem C93_add (grow : Nat → Nat) (v : BSlice) (path : List Bytes) (hj : json.ok h) (hv : v.ok h) :
    Apart h json (AddMem grow h json v path) (Add (h.read json) (h.read v) path) := by
  unfold AddMem Add
  split
  · exact apart_err
  · refine apart_bind fun r _ => apart_bind fun b _ => ?_
    obtain ⟨start, stop⟩ := r
    simp only
    split
    · cases firstNS (h.read json) (start + 1) (stop - 1) with
      | none => exact apart_replace hj hv (.inl (Int.le_refl _))
      | some _ =>
        have e := comma_block hv
        have hl := bread_length hv
        simp only [BHeap.make, Nat.zero_add] at e ⊢
        rw [e]
        refine apart_val (x := 44 :: h.read v) hj ⟨Nat.le_refl _, ?_⟩ ?_ (.inl (Int.le_refl _))
        · simp [BHeap.block, hl]
        · show List.take (v.len + 1) (List.drop 0 (BHeap.block (h ++ [44 :: h.read v]) h.length)) = _
          rw [show BHeap.block (h ++ [44 :: h.read v]) h.length = 44 :: h.read v by simp [BHeap.block], List.drop_zero]
          exact List.take_of_length_le (by simp only [List.length_cons]; omega)
    · exact apart_err

theorem thenComma_eq {v : BSlice} (hv : v.ok h) : thenComma grow h v = (fresh h (h.read v ++ [44]) 0, freshS h (h.read v ++ [44]) 0) := by
  have hl := bread_length hv
  unfold thenComma
  have hr : BHeap.read (fresh h [] (v.len + 1)) v = h.read v := read_append hv
  simp only [make_fresh, hr]
  rw [append_fresh (by omega), append_fresh (by simp; omega)]
  simp [hl]

theorem commaThen_eq {v : BSlice} (hv : v.ok h) : commaThen grow h v = (fresh h (44 :: h.read v) 0, freshS h (44 :: h.read v) 0) := by
  have hl := bread_length hv
  unfold commaThen
  simp only [make_fresh]
  rw [append_fresh (by simp)]
  have hr : ∀ n, BHeap.read (fresh h ([] ++ [44]) n) v = h.read v := fun n => read_append hv
  simp only [hr]
  rw [append_fresh (by simp; omega)]
  simp [hl]

/-- **C93** `Insert` leaves the memory of the document and of the value alone. -/
theorem C93_insert (grow : Nat → Nat) (index : Int) (v : BSlice) (path : List Bytes) (hj : json.ok h) (hv : v.ok h) :
    Apart h json (InsertBytes grow h json index v path) (Insert (h.read json) index (h.read v) path) := by
  unfold InsertBytes Insert
  refine apart_bind fun r _ => apart_bind fun b _ => ?_
  obtain ⟨start, stop⟩ := r
  simp only
  split
  · exact apart_err
  · refine apart_bind fun l _ => apart_bind fun r _ => ?_
    obtain ⟨start, stop⟩ := r
    refine apart_bind fun a _ => apart_bind fun z _ => ?_
    simp only [thenComma_eq hv, commaThen_eq hv]
    split
    · exact apart_str hj (.inl (Int.le_refl _))
    · split
      · exact apart_str hj (.inl (Int.le_refl _))
      · split
        · exact apart_str hj (.inl (Int.le_refl _))
        · exact apart_err

/-- **C93** `Delete` leaves the memory of the document alone. -/
theorem C93_delete (grow : Nat → Nat) (path : List Bytes) (hj : json.ok h) :
    Apart h json (DeleteMem grow h json path) (Delete (h.read json) path) := by
  unfold DeleteMem Delete
  split
  · exact apart_err
  · rename_i hlen
    have hp : path ≠ [] := by rintro rfl; exact hlen rfl
    refine apart_bind fun l hl => apart_bind fun r hr => ?_
    obtain ⟨hsp, hks⟩ := core_shape hp hl
    obtain ⟨r1, r2, r3, r4⟩ := widen_done hr
    have hle := hsp.le
    have hlen' := hsp.len
    rw [bread_length hj] at hlen'
    have hs : (if (l.keyStart == -1) = true then l.start else (l.keyStart - 1).toNat) ≤ l.start := by
      split
      · exact Nat.le_refl _
      · rename_i hk
        rcases hks with hks | ⟨n, key, k1, -, k3, -⟩
        · exact absurd (by simpa using hks) hk
        · omega
    obtain ⟨start, e⟩ := r
    simp only at r1 r2
    refine apart_bind fun a _ => apart_bind fun z _ => ?_
    simp only [make_fresh]
    have hse : (lastNS (h.read json) 1 start).getD 0 ≤ json.len := by
      cases hx : lastNS (h.read json) 1 start with
      | none => exact Nat.zero_le _
      | some j => have := lastNS_lt hx; simp only [Option.getD_some]; omega
    split
    · exact apart_str hj (.inr (by omega))
    · split
      · exact apart_str hj (.inr (by omega))
      · split
        · exact apart_str hj (.inr (by omega))
        · exact apart_err

/-- **C93** `Store` leaves the memory of the document and of the value alone. -/
theorem C93_store (grow : Nat → Nat) (key : Bytes) (v : Option BSlice) (path : List Bytes) (hj : json.ok h) (hv : ∀ w, v = some w → w.ok h) :
    Apart h json (StoreBytes grow h json key v path) (Store (h.read json) key (v.map h.read) path) := by
  unfold StoreBytes Store
  cases hc : core (h.read json) false (path ++ [key]) with
  | panic => exact apart_panic
  | err e =>
    simp only
    split
    · exact C93_addKeyValue grow key v path hj
    · exact apart_err
  | ok l =>
    have := apart_value (grow := grow) (v := v.getD .nil) hj (by cases v with | none => exact nil_ok | some v => exact hv v rfl)
      (core_shape (by simp) hc).1.le
    have e : h.read (v.getD .nil) = (v.map h.read).getD [] := by cases v with | none => exact nil_read | some v => rfl
    rw [e] at this
    exact this

/-! ### The functions that take a string -/

theorem apart_string {x : Bytes} {r : MutS × BHeap} {m : Mut} (hj : json.ok h)
    (ha : Apart (fresh h x (grow x.length)) json r m) : Apart h json r m := apart_more hj ha

/-- **C93** `SetString`, `AddString` and `StoreString` leave the memory of the document alone. -/
theorem C93_strings (grow : Nat → Nat) (isFloat : Bytes → Bool) (key value : Bytes) (path : List Bytes) (hj : json.ok h) :
    Apart h json (SetStringMem grow isFloat h json value path) (SetString isFloat (h.read json) value path) ∧
    Apart h json (AddStringMem grow isFloat h json value path) (AddString isFloat (h.read json) value path) ∧
    Apart h json (StoreStringMem grow isFloat h json key value path) (StoreString isFloat (h.read json) key value path) := by
  have hj' : json.ok (fresh h (formatType isFloat value) (grow (formatType isFloat value).length)) := ok_append hj
  have hr : BHeap.read (fresh h (formatType isFloat value) (grow (formatType isFloat value).length)) json = h.read json := read_append hj
  have hv := fresh_read (h := h) (x := formatType isFloat value) (n := grow (formatType isFloat value).length)
  have hk := fresh_ok (h := h) (x := formatType isFloat value) (n := grow (formatType isFloat value).length)
  refine ⟨apart_string (grow := grow) (x := formatType isFloat value) hj ?_, apart_string (grow := grow) (x := formatType isFloat value) hj ?_,
    apart_string (grow := grow) (x := formatType isFloat value) hj ?_⟩
  · have := C93_set grow _ path hj' hk
    rw [hr, hv] at this
    exact this
  · have := C93_add grow _ path hj' hk
    rw [hr, hv] at this
    exact this
  · have := C93_store grow key (some (freshS h (formatType isFloat value) (grow (formatType isFloat value).length))) path hj'
      (by rintro w ⟨⟩; exact hk)
    rw [Option.map_some, hr, hv] at this
    exact this

/-- **C93** `AddKeyValueString` with a key and `InsertString` with an index from 0 up leave the memory of the
document alone. -/
theorem C93_guarded (grow : Nat → Nat) (isFloat : Bytes → Bool) (key value : Bytes) (index : Int) (path : List Bytes) (hj : json.ok h) :
    (key ≠ [] → Apart h json (AddKeyValueStringMem grow isFloat h json key value path)
      (AddKeyValueString isFloat (h.read json) key value path)) ∧
    (0 ≤ index → Apart h json (InsertStringMem grow isFloat h json index value path)
      (InsertString isFloat (h.read json) index value path)) := by
  have hj' : json.ok (fresh h (formatType isFloat value) (grow (formatType isFloat value).length)) := ok_append hj
  have hr : BHeap.read (fresh h (formatType isFloat value) (grow (formatType isFloat value).length)) json = h.read json := read_append hj
  have hv := fresh_read (h := h) (x := formatType isFloat value) (n := grow (formatType isFloat value).length)
  have hk := fresh_ok (h := h) (x := formatType isFloat value) (n := grow (formatType isFloat value).length)
  refine ⟨fun hne => ?_, fun hi => ?_⟩
  · unfold AddKeyValueStringMem AddKeyValueString
    rw [if_neg (by simpa using hne), if_neg (by simpa using hne)]
    refine apart_string (grow := grow) (x := formatType isFloat value) hj ?_
    have := C93_addKeyValue grow key (some (freshS h (formatType isFloat value) (grow (formatType isFloat value).length))) path hj'
    rw [Option.map_some, hr, hv] at this
    exact this
  · unfold InsertStringMem InsertString
    rw [if_neg (by omega), if_neg (by omega)]
    refine apart_string (grow := grow) (x := formatType isFloat value) hj ?_
    have := C93_insert grow index _ path hj' hk
    rw [hr, hv] at this
    exact this

/-- **C93** Without a key, or with a negative index, these two give the nil slice: the document is lost
to a caller who writes `json, err = …`, though its memory is not touched. -/
theorem C93_nil (grow : Nat → Nat) (isFloat : Bytes → Bool) (h : BHeap) (json : BSlice) (value : Bytes) (index : Int) (path : List Bytes) (hi : index < 0) :
    AddKeyValueStringMem grow isFloat h json [] value path = (.done .nil (some .nullKey), h) ∧
    InsertStringMem grow isFloat h json index value path = (.done .nil (some .indexOutOfRange), h) :=
  ⟨rfl, by unfold InsertStringMem; rw [if_pos hi]⟩

/-! ### What is written later -/

theorem write_other {b n : Nat} {s : BSlice} {x : Bytes} (hb : s.blk ≠ b) : (h.write b n x).read s = h.read s := by
  unfold BHeap.write BHeap.read BHeap.block
  rw [List.getElem?_modify_ne _ _ (Ne.symm hb)]

/-- **C93** After an edit that succeeds, what is written into the arrays from before does not reach the
new document, and what is written into its array reaches no slice from before. -/
theorem C93_later {r : MutS × BHeap} {m : Mut} {s : BSlice} (ha : Apart h json r m) (hs : r.1 = .done s none) :
    (∀ b n x, b < h.length → (r.2.write b n x).read s = r.2.read s) ∧
    (∀ t : BSlice, t.ok h → ∀ n x, (r.2.write s.blk n x).read t = h.read t) := by
  obtain ⟨⟨new, e⟩, hm⟩ := ha
  rw [hs] at hm
  obtain ⟨hb, -, -, -⟩ := hm
  refine ⟨fun b n x hlt => write_other (by omega), fun t ht n x => ?_⟩
  by_cases hb' : t.blk < h.length
  · rw [write_other (by omega), e, read_append ht]
  · have h1 := ht.1
    have h2 := ht.2
    rw [bblock_none hb'] at h2
    simp only [List.length_nil] at h2
    have : t.len = 0 := by omega
    simp [BHeap.read, this]

/-! ### A document with room behind it, and a value inside the document's own array -/

/-- `{"a":1}` and eight more bytes in the array. -/
def bufHeap : BHeap := [str "{\"a\":1},\"spare\""]
def bufJson : BSlice := ⟨0, 0, 7, 15⟩

theorem bufJson_ok : bufJson.ok bufHeap := ⟨by decide, by decide +kernel⟩

example : bufHeap.read bufJson = str "{\"a\":1}" := by decide +kernel

/-- The value is the `1` of the document. -/
example : SetMem (fun n => n) bufHeap bufJson ⟨0, 5, 1, 10⟩ [str "a"] = (.done ⟨1, 0, 7, 7⟩ none, bufHeap ++ [str "{\"a\":1}"]) := by
  decide +kernel

example : AddKeyValueBytes (fun n => n) bufHeap bufJson (str "b") (some ⟨0, 5, 1, 10⟩) [] =
    (.done ⟨2, 0, 13, 13⟩ none, bufHeap ++ [str ",\"b\":1" ++ List.replicate 6 0, str "{\"a\":1,\"b\":1}"]) := by
  decide +kernel

example : Apart bufHeap bufJson (AddKeyValueBytes (fun n => n) bufHeap bufJson (str "b") (some ⟨0, 5, 1, 10⟩) [])
    (.done (str "{\"a\":1,\"b\":1}") none) := by
  have := C93_addKeyValue (fun n => n) (str "b") (some ⟨0, 5, 1, 10⟩) [] bufJson_ok
  rwa [show AddKeyValue (bufHeap.read bufJson) (str "b") (Option.map bufHeap.read (some ⟨0, 5, 1, 10⟩)) [] =
    .done (str "{\"a\":1,\"b\":1}") none by decide +kernel] at this

/-- An error: the slice that was given. -/
example : DeleteMem (fun n => n) bufHeap bufJson [str "z"] = (.done bufJson (some (.keyNotFound (str "z"))), bufHeap) := by
  decide +kernel

end Jin
