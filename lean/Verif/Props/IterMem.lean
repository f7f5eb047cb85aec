import Verif.Proof.IterMem
import Verif.Props.ByteMem
/-!
# Props.IterMem — C94, C95: slices of the document in the caller's hands
-/

namespace Jin
open Spec
variable {h : BHeap} {json : BSlice}

/-! ### C94: the slice that `Get` gives -/

/-- **C94** `Get` gives the bytes that it gives on plain bytes, whatever the capacity of the slice and whatever is in
the array behind the document.  The slice is a part of the document's memory, with all the room there is behind
it. -/
theorem C94_get (path : List Bytes) (hj : json.ok h) :
    match GetMem h json path, Get (h.read json) path with
    | .ok w, .ok v => (w.blk = json.blk ∧ json.off ≤ w.off ∧ w.off + w.len ≤ json.off + json.len ∧ w.off + w.cap = json.off + json.cap) ∧
        h.read w = v
    | .err e, .err e' => e = e'
    | .panic, .panic => True
    | _, _ => False := getMem_rel path hj

theorem getMem_window {path : List Bytes} {w : BSlice} (hj : json.ok h) (hg : GetMem h json path = .ok w) : Window json w := by
  have := getMem_rel path hj
  rw [hg] at this
  cases hv : Get (h.read json) path <;> rw [hv] at this <;> first | exact this.elim | exact this.1

theorem block_write {b n : Nat} {x : Bytes} (hb : b < h.length) :
    (h.write b n x).block b = (h.block b).take n ++ x ++ (h.block b).drop (n + x.length) := by
  unfold BHeap.write BHeap.block
  rw [List.getElem?_modify_eq, List.getElem?_eq_getElem hb]
  rfl

/-- Bytes before the slice, in it and behind it. -/
theorem window_split {w : BSlice} (hw : Window json w) :
    h.read json = (h.read json).take (w.off - json.off) ++ h.read w ++ (h.read json).drop (w.off - json.off + w.len) := by
  obtain ⟨a1, a2, a3, -⟩ := hw
  have := sub_read (h := h) (s := json) (lo := w.off - json.off) (hi := w.off - json.off + w.len) (c := w.cap) (by omega) (by omega)
  rw [Nat.add_sub_cancel_left, show json.off + (w.off - json.off) = w.off by omega, ← a1] at this
  have hr : h.read w = List.take w.len (List.drop (w.off - json.off) (h.read json)) := this
  rw [hr]
  have := cut3 (h.read json) (i := w.off - json.off) (j := w.off - json.off + w.len) (by omega)
  rwa [Nat.add_sub_cancel_left] at this

/-- What `append` in place does to the document. -/
theorem append_room (grow : Nat → Nat) {w : BSlice} {x : Bytes} (hw : Window json w) (hj : json.ok h) (hx : w.len + x.length ≤ w.cap) :
    (h.append grow w x).1.read json =
      ((h.read json).take (w.off - json.off) ++ h.read w ++ x ++ (h.read json).drop (w.off - json.off + w.len + x.length)).take json.len := by
  have hwk := hw.ok hj
  have hwl := bread_length hwk
  have hjl := bread_length hj
  obtain ⟨a1, a2, a3, a4⟩ := hw
  obtain ⟨j1, j2⟩ := hj
  unfold BHeap.append
  rw [if_pos hx]
  simp only
  by_cases hb : json.blk < h.length
  · have hlen : x.length ≤ (h.block json.blk).length - (w.off + w.len) := by omega
    generalize hB : h.block json.blk = B at *
    have e1 : (h.write w.blk (w.off + w.len) x).read json = ((B.take (w.off + w.len) ++ x ++ B.drop (w.off + w.len + x.length)).drop json.off).take json.len := by
      unfold BHeap.read
      rw [a1, block_write hb, hB]
    have e2 : h.read json = (B.drop json.off).take json.len := by unfold BHeap.read; rw [hB]
    have e3 : h.read w = (B.drop w.off).take w.len := by unfold BHeap.read; rw [a1, hB]
    rw [e1, e2, e3]
    apply List.ext_getElem?
    intro i
    simp only [List.getElem?_take, List.getElem?_drop, List.getElem?_append, List.length_append, List.length_take, List.length_drop]
    by_cases hi : i < json.len
    · simp only [if_pos hi]
      by_cases h1 : i < w.off - json.off
      · rw [if_pos (by omega), if_pos (by omega), if_pos (by omega), if_pos (by omega), if_pos (by omega), if_pos (by omega),
          if_pos (by omega)]
      · by_cases h2 : i < w.off - json.off + w.len
        · rw [if_pos (by omega), if_pos (by omega), if_pos (by omega), if_pos (by omega), if_pos (by omega), if_neg (by omega),
            if_pos (by omega)]
          congr 1
          omega
        · by_cases h3 : i < w.off - json.off + w.len + x.length
          · rw [if_pos (by omega), if_neg (by omega), if_pos (by omega), if_neg (by omega)]
            congr 1
            omega
          · rw [if_neg (by omega), if_neg (by omega), if_pos (by omega)]
            congr 1
            omega
    · simp only [if_neg hi]
  · rw [bblock_none hb] at j2
    simp only [List.length_nil] at j2
    have : json.len = 0 := by omega
    simp [BHeap.read, this]

/-- **C94** Appending to the slice that `Get` gives, when the array has room: the new bytes overwrite the document
behind the value. -/
theorem C94_append (grow : Nat → Nat) {path : List Bytes} {w : BSlice} {x : Bytes} (hj : json.ok h) (hg : GetMem h json path = .ok w)
    (hx : w.len + x.length ≤ w.cap) :
    ∃ a b, h.read json = a ++ h.read w ++ b ∧ (h.append grow w x).1.read json = (a ++ h.read w ++ x ++ b.drop x.length).take json.len := by
  have hw := getMem_window hj hg
  refine ⟨_, _, window_split hw, ?_⟩
  rw [append_room grow hw hj hx, List.drop_drop]

/-- **C94** When the array has no room the document stays as it is.  Missing: appending leaves the document alone
however much room there is (`C94_fails`). -/
theorem C94_append_partial (grow : Nat → Nat) {path : List Bytes} {w : BSlice} {x : Bytes} (hj : json.ok h) (_hg : GetMem h json path = .ok w)
    (hx : w.cap < w.len + x.length) : (h.append grow w x).1.read json = h.read json := by
  unfold BHeap.append
  rw [if_neg (by omega)]
  exact read_append hj

/-- **C94** Nor does it change when the caller first gives the room away, `v[:len(v):len(v)]`, or copies. -/
theorem C94_cut_partial (grow : Nat → Nat) {path : List Bytes} {w : BSlice} {x : Bytes} (hj : json.ok h) (hg : GetMem h json path = .ok w) :
    (h.append grow { w with cap := w.len } x).1.read json = h.read json := by
  have hw := getMem_window hj hg
  by_cases hx : x = []
  · subst hx
    have e : h.append grow { w with cap := w.len } [] = (h, { w with cap := w.len }) := by
      unfold BHeap.append
      rw [if_pos (by simp)]
      have : h.write w.blk (w.off + w.len) [] = h := by
        unfold BHeap.write
        have : (fun c : Bytes => c.take (w.off + w.len) ++ [] ++ c.drop (w.off + w.len + ([] : Bytes).length)) = id := by
          funext c; simp
        rw [this, List.modify_id]
      simp [this]
    rw [e]
  · unfold BHeap.append
    rw [if_neg (by have := List.length_pos_iff.2 hx; simp only; omega)]
    exact read_append hj

/-- **C94** One byte appended to a value from `Get` destroys the document: the `0` of `append(v, '0')` takes the
place of the comma. -/
theorem C94_fails : ∃ (h : BHeap) (json w : BSlice), json.ok h ∧ h.read json = str "{\"a\":1,\"b\":2}" ∧
    GetMem h json [str "a"] = .ok w ∧ h.read w = str "1" ∧
    ∀ grow, (h.append grow w (str "0")).1.read json = str "{\"a\":10\"b\":2}" := by
  refine ⟨[str "{\"a\":1,\"b\":2}"], ⟨0, 0, 13, 13⟩, ⟨0, 5, 1, 8⟩, ⟨by decide, by decide +kernel⟩, by decide +kernel, by decide +kernel, by decide +kernel, ?_⟩
  intro grow
  unfold BHeap.append
  rw [if_pos (by decide +kernel)]
  decide +kernel

/-! ### C95: the callbacks of the iterators -/

section
variable {σ τ : Type} {doc : Bytes}

/-- **C95** `IterateArray` with a callback that keeps the document's bytes: it calls it on slices of the document whose
bytes are the elements, as on plain bytes.  `R` relates the memory and the callback's state to the state of a
callback `c2` that gets bytes.  Missing: callbacks that write to the slice they get (`C95_fails`). -/
theorem C95_iterateArray_partial {R : BHeap × σ → τ → Prop} (hR : ∀ u t, R u t → json.ok u.1 ∧ u.1.read json = doc)
    {c1 : BHeap × σ → BSlice → Cb (BHeap × σ)} {c2 : τ → Bytes → Cb τ}
    (hc : ∀ u t w, R u t → Window json w → CbRel R (c1 u w) (c2 t (u.1.read w))) (path : List Bytes) {u : BHeap × σ} {t : τ} (h : R u t) :
    IterRel R (IterateArrayMem json c1 path u) (IterateArray doc c2 path t) := iterateArrayMem_sim hR hc path h

/-- **C95** The same for `IterateKeyValue`; the key is nil before the first colon. -/
theorem C95_iterateKeyValue_partial {R : BHeap × σ → τ → Prop} (hR : ∀ u t, R u t → json.ok u.1 ∧ u.1.read json = doc)
    {c1 : BHeap × σ → BSlice → BSlice → Cb (BHeap × σ)} {c2 : τ → Bytes → Bytes → Cb τ}
    (hc : ∀ u t k w, R u t → (Window json k ∨ k = .nil) → Window json w → CbRel R (c1 u k w) (c2 t (u.1.read k) (u.1.read w)))
    (path : List Bytes) {u : BHeap × σ} {t : τ} (h : R u t) :
    IterRel R (IterateKeyValueMem json c1 path u) (IterateKeyValue doc c2 path t) := iterateKVMem_sim hR hc path h

/-- **C95** The same for `Walk`. -/
theorem C95_walk_partial {R : BHeap × σ → τ → Prop} (hR : ∀ u t, R u t → json.ok u.1 ∧ u.1.read json = doc) (isFloat : Bytes → Bool)
    {c1 : BHeap × σ → Bytes → BSlice → List Bytes → Cb (BHeap × σ)} {c2 : τ → Bytes → Bytes → List Bytes → Cb τ}
    (hc : ∀ u t k w p, R u t → Window json w → CbRel R (c1 u k w p) (c2 t k (u.1.read w) p)) {u : BHeap × σ} {t : τ} (h : R u t) :
    IterRel R (WalkBytes isFloat json c1 u) (Walk isFloat doc c2 t) := by
  have e := bread_length (hR u t h).1
  rw [(hR u t h).2] at e
  unfold WalkBytes Walk
  rw [e]
  exact walkBytes_sim hR isFloat hc _ _ h

end

/-- A callback that reads: it lists the bytes it is given. -/
def listing (u : BHeap × List Bytes) (w : BSlice) : Cb (BHeap × List Bytes) := .ret (u.1, u.2 ++ [u.1.read w]) true none

/-- **C95** With a callback that only reads, the elements. -/
theorem C95_listing (path : List Bytes) (hj : json.ok h) (l : List Bytes) :
    IterateArrayMem json listing path (h, l) =
      match IterateArray (h.read json) (fun (l : List Bytes) v => .ret (l ++ [v]) true none) path l with
      | .done l e => .done (h, l) e
      | .panic => .panic := by
  have := C95_iterateArray_partial (json := json) (doc := h.read json) (R := fun (u : BHeap × List Bytes) t => u = (h, t))
    (by rintro u t rfl; exact ⟨hj, rfl⟩) (c1 := listing) (c2 := fun (l : List Bytes) v => .ret (l ++ [v]) true none)
    (by rintro u t w rfl _; exact ⟨rfl, rfl, rfl⟩) path (u := (h, l)) (t := l) rfl
  revert this
  cases IterateArrayMem json listing path (h, l) <;>
    cases IterateArray (h.read json) (fun (l : List Bytes) v => (.ret (l ++ [v]) true none : Cb (List Bytes))) path l
  · rintro ⟨rfl, rfl⟩; rfl
  · exact fun h => h.elim
  · exact fun h => h.elim
  · exact fun _ => rfl

/-- A callback that lists the bytes it is given and appends `x` to the slice. -/
def appending (x : Bytes) (u : BHeap × List Bytes) (w : BSlice) : Cb (BHeap × List Bytes) :=
  .ret ((u.1.append (fun n => n) w x).1, u.2 ++ [u.1.read w]) true none

/-- The same for `IterateKeyValue`. -/
def appendingKV (x : Bytes) (u : BHeap × List Bytes) (k w : BSlice) : Cb (BHeap × List Bytes) :=
  .ret ((u.1.append (fun n => n) w x).1, u.2 ++ [u.1.read k, u.1.read w]) true none

/-- The same for `Walk`. -/
def appendingW (x : Bytes) (u : BHeap × List Bytes) (k : Bytes) (w : BSlice) (_ : List Bytes) : Cb (BHeap × List Bytes) :=
  .ret ((u.1.append (fun n => n) w x).1, u.2 ++ [k, u.1.read w]) true none

/-- **C95** A callback that appends to the slice it gets changes what comes next: of `[1,2,3]` it gets `1`, `5`, `5`
when it appends `.5`; of `{"a":1,"b":2}` the key `x` in place of `b`; and `Walk` too
meets a key that was not there. -/
theorem C95_fails :
    IterateArrayMem ⟨0, 0, 7, 7⟩ (appending (str ".5")) [] ([str "[1,2,3]"], []) =
      .done ([str "[1.5.5]", str "5.5" ++ [0, 0, 0]], [str "1", str "5", str "5"]) none ∧
    IterateKeyValueMem ⟨0, 0, 13, 13⟩ (appendingKV (str ",\"x\"")) [] ([str "{\"a\":1,\"b\":2}"], []) =
      .done ([str "{\"a\":1,\"x\":2}", str "2,\"x\"" ++ [0, 0, 0, 0, 0]], [str "a", str "1", str "x", str "2"]) none ∧
    WalkBytes (fun _ => false) ⟨0, 0, 13, 13⟩ (appendingW (str ",\"x")) ([str "{\"a\":1,\"b\":2}"], []) =
      .done ([str "{\"a\":1,\"x\":2}", str "2,\"x" ++ [0, 0, 0, 0]], [str "a", str "1", str "x", str "2"]) none := by
  refine ⟨?_, ?_, ?_⟩ <;> decide +kernel

/-- The hypotheses of `C94` and `C95` hold of a document inside a longer buffer. -/
example : (⟨0, 1, 13, 16⟩ : BSlice).ok [str "#{\"a\":1,\"b\":2}###"] ∧
    GetMem [str "#{\"a\":1,\"b\":2}###"] ⟨0, 1, 13, 16⟩ [str "b"] = .ok ⟨0, 12, 1, 5⟩ ∧
    IterateArrayMem ⟨0, 1, 7, 9⟩ listing [] ([str "#[1,2,3]##"], []) = .done ([str "#[1,2,3]##"], [str "1", str "2", str "3"]) none := by
  refine ⟨⟨by decide, by decide +kernel⟩, ?_, ?_⟩ <;> decide +kernel

end Jin
