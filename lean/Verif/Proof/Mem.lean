import Verif.Model.Mem
import Verif.Model.Make
/-!
# Proof.Mem — slices in memory: what `append` changes, and loops that run in step
-/

namespace Jin

/-! ### Cells -/

/-- The slice lies inside its array. -/
structure Slice.ok (s : Slice) (h : Heap) : Prop where
  le : s.len ≤ s.cap
  fit : s.off + s.cap ≤ (h.block s.blk).length

theorem block_set (h : Heap) (b i : Nat) (x : Bytes) (c : Nat) :
    Heap.block (h.modify b (fun l => l.set i x)) c = if b = c then (h.block c).set i x else h.block c := by
  unfold Heap.block
  rw [List.getElem?_modify]
  by_cases hb : b = c
  · simp only [hb, if_true]
    cases h[c]? <;> simp
  · simp [hb]

theorem block_old {h : Heap} {l : List Bytes} {c : Nat} (hc : c < h.length) : Heap.block (h ++ [l]) c = h.block c := by
  unfold Heap.block
  rw [List.getElem?_append_left hc]

theorem block_new (h : Heap) (l : List Bytes) : Heap.block (h ++ [l]) h.length = l := by
  simp [Heap.block]

theorem block_none {h : Heap} {c : Nat} (hc : h.length ≤ c) : h.block c = [] := by
  simp [Heap.block, List.getElem?_eq_none hc]

theorem read_getElem? (h : Heap) (s : Slice) (i : Nat) :
    (h.read s)[i]? = if i < s.len then (h.block s.blk)[s.off + i]? else none := by
  unfold Heap.read
  rw [List.getElem?_take]
  split <;> simp

theorem read_length {h : Heap} {s : Slice} (hs : s.ok h) : (h.read s).length = s.len := by
  have := hs.le
  have := hs.fit
  unfold Heap.read
  simp; omega

theorem read_congr {h h' : Heap} {s : Slice}
    (e : ∀ i, s.off ≤ i → i < s.off + s.len → (h'.block s.blk)[i]? = (h.block s.blk)[i]?) : h'.read s = h.read s := by
  apply List.ext_getElem?
  intro i
  rw [read_getElem?, read_getElem?]
  split
  · exact e _ (by omega) (by omega)
  · rfl

/-! ### What may have changed -/

/-- Memory `h'` has all arrays of `h`, and at most the cells in `A` are different. -/
structure Frame (A : Nat → Nat → Prop) (h h' : Heap) : Prop where
  len : h.length ≤ h'.length
  size : ∀ b, b < h.length → (h'.block b).length = (h.block b).length
  cell : ∀ b i, b < h.length → ¬ A b i → (h'.block b)[i]? = (h.block b)[i]?

theorem Frame.refl (A : Nat → Nat → Prop) (h : Heap) : Frame A h h := ⟨Nat.le_refl _, fun _ _ => rfl, fun _ _ _ _ => rfl⟩

theorem Frame.trans {A B : Nat → Nat → Prop} {h h' h'' : Heap} (f : Frame A h h') (g : Frame B h' h'')
    (hAB : ∀ b i, b < h.length → B b i → A b i) : Frame A h h'' where
  len := Nat.le_trans f.len g.len
  size := fun b hb => (g.size b (Nat.lt_of_lt_of_le hb f.len)).trans (f.size b hb)
  cell := fun b i hb hA => (g.cell b i (Nat.lt_of_lt_of_le hb f.len) fun hB => hA (hAB b i hb hB)).trans (f.cell b i hb hA)

theorem Frame.mono {A B : Nat → Nat → Prop} {h h' : Heap} (f : Frame B h h') (hAB : ∀ b i, b < h.length → B b i → A b i) : Frame A h h' :=
  (Frame.refl A h).trans f hAB

/-- A slice with no changed cell reads as before. -/
theorem Frame.read {A : Nat → Nat → Prop} {h h' : Heap} {s : Slice} (f : Frame A h h') (hs : s.ok h)
    (hA : ∀ i, s.off ≤ i → i < s.off + s.len → ¬ A s.blk i) : h'.read s = h.read s := by
  have h1 := hs.le
  have h2 := hs.fit
  rcases Nat.lt_or_ge s.blk h.length with hb | hb
  · exact read_congr fun i h1 h2 => f.cell _ _ hb (hA i h1 h2)
  · rw [block_none hb] at h2
    simp only [List.length_nil] at h2
    unfold Heap.read
    rw [show s.len = 0 by omega]; simp

theorem Frame.ok {A : Nat → Nat → Prop} {h h' : Heap} {s : Slice} (f : Frame A h h') (hs : s.ok h) : s.ok h' where
  le := hs.le
  fit := by
    have h2 := hs.fit
    rcases Nat.lt_or_ge s.blk h.length with hb | hb
    · rw [f.size _ hb]; exact h2
    · rw [block_none hb] at h2
      simp only [List.length_nil] at h2
      omega

/-- The cell right behind the slice, if it belongs to its capacity. -/
def Slice.spot (s : Slice) (b i : Nat) : Prop := b = s.blk ∧ i = s.off + s.len ∧ s.len < s.cap
/-- The cells behind the slice that belong to its capacity. -/
def Slice.room (s : Slice) (b i : Nat) : Prop := b = s.blk ∧ s.off + s.len ≤ i ∧ i < s.off + s.cap

theorem Slice.spot_room {s : Slice} {b i : Nat} (h : s.spot b i) : s.room b i := ⟨h.1, by have := h.2; omega, by have := h.2; omega⟩

theorem Slice.not_spot {s : Slice} (i : Nat) (_ : s.off ≤ i) (h : i < s.off + s.len) : ¬ s.spot s.blk i := fun hs => by have := hs.2.1; omega
theorem Slice.not_room {s : Slice} (i : Nat) (_ : s.off ≤ i) (h : i < s.off + s.len) : ¬ s.room s.blk i := fun hs => by have := hs.2.1; omega

section append
variable {grow : Nat → Nat} {h : Heap} {s : Slice} {x : Bytes}

theorem append_frame (grow : Nat → Nat) (h : Heap) (s : Slice) (x : Bytes) : Frame s.spot h (h.append grow s x).1 := by
  unfold Heap.append
  split
  · rename_i hc
    refine ⟨by simp, fun b _ => ?_, fun b i _ hA => ?_⟩
    · rw [block_set]; split <;> simp
    · rw [block_set]
      split
      · rename_i hb
        rw [List.getElem?_set_ne]
        intro hi
        exact hA ⟨hb.symm, hi.symm, hc⟩
      · rfl
  · exact ⟨by simp, fun b hb => by rw [block_old hb], fun b i hb _ => by rw [block_old hb]⟩

theorem slice_append_ok (hs : s.ok h) : (h.append grow s x).2.ok (h.append grow s x).1 := by
  have h1 := hs.le
  have h2 := hs.fit
  unfold Heap.append
  split
  · rename_i hc
    refine ⟨?_, ?_⟩
    · show s.len + 1 ≤ s.cap; omega
    · show s.off + s.cap ≤ _
      rw [block_set]; simpa using h2
  · refine ⟨?_, ?_⟩
    · show s.len + 1 ≤ s.len + 1 + grow s.len; omega
    · show 0 + (s.len + 1 + grow s.len) ≤ _
      rw [block_new]
      simp [read_length hs]; omega

theorem append_read (hs : s.ok h) : (h.append grow s x).1.read (h.append grow s x).2 = h.read s ++ [x] := by
  have h1 := hs.le
  have h2 := hs.fit
  unfold Heap.append
  split
  · rename_i hc
    apply List.ext_getElem?
    intro i
    rw [read_getElem?]
    simp only [block_set, if_true]
    rcases Nat.lt_trichotomy i s.len with hi | hi | hi
    · rw [if_pos (by omega), List.getElem?_set_ne (by omega), List.getElem?_append_left (by rw [read_length hs]; exact hi),
        read_getElem?, if_pos hi]
    · subst hi
      rw [if_pos (by omega), List.getElem?_set_self (by omega), List.getElem?_append_right (by rw [read_length hs]; omega), read_length hs]
      simp
    · rw [if_neg (by omega), List.getElem?_eq_none]
      simp [read_length hs]; omega
  · unfold Heap.read
    simp only [block_new]
    have := read_length hs
    unfold Heap.read at this
    rw [List.drop_zero, ← List.singleton_append, ← List.append_assoc, List.take_append_of_le_length (by simp [this])]
    rw [List.take_of_length_le (by simp [this])]

/-- The slice that `append` gives is in a new array, or is the old one with one more cell. -/
theorem append_slice : (h.append grow s x).2.blk = h.length ∨
    (s.len < s.cap ∧ (h.append grow s x).2 = { s with len := s.len + 1 }) := by
  unfold Heap.append
  split
  · rename_i hc; exact .inr ⟨hc, rfl⟩
  · exact .inl rfl

end append

/-! ### Loops in step -/

/-- Two loop steps that do the same on related states. -/
def CtlRel {σ τ ρ κ : Type} (S : σ → τ → Prop) (R : ρ → κ → Prop) : Ctl σ ρ → Ctl τ κ → Prop
  | .next s, .next t => S s t
  | .goto i s, .goto j t => i = j ∧ S s t
  | .brk s, .brk t => S s t
  | .ret r, .ret k => R r k
  | _, _ => False

def LoopRel {σ τ ρ κ : Type} (S : σ → τ → Prop) (R : ρ → κ → Prop) : LoopRes σ ρ → LoopRes τ κ → Prop
  | .done s, .done t => S s t
  | .ret r, .ret k => R r k
  | _, _ => False

theorem forUp_sim {σ τ ρ κ : Type} {hi : Nat} {b1 : Nat → σ → Ctl σ ρ} {b2 : Nat → τ → Ctl τ κ} {S : σ → τ → Prop} {R : ρ → κ → Prop}
    (step : ∀ i s t, S s t → CtlRel S R (b1 i s) (b2 i t)) {i : Nat} {s : σ} {t : τ} (h : S s t) :
    LoopRel S R (forUp hi b1 i s) (forUp hi b2 i t) := by
  induction hn : hi - i using Nat.strongRecOn generalizing i s t with
  | ind n ih =>
    rw [forUp, forUp]
    by_cases hlt : i < hi
    · rw [if_pos hlt, if_pos hlt]
      have := step i s t h
      cases h1 : b1 i s <;> cases h2 : b2 i t <;> rw [h1, h2] at this <;> try exact this.elim
      · exact ih _ (by omega) this rfl
      · obtain ⟨rfl, h'⟩ := this
        exact ih _ (by omega) h' rfl
      · exact this
      · exact this
    · rw [if_neg hlt, if_neg hlt]; exact h

/-- Two callbacks that do the same on related states. -/
def CbRel {σ τ : Type} (S : σ → τ → Prop) : Cb σ → Cb τ → Prop
  | .ret s b e, .ret t b' e' => S s t ∧ b = b' ∧ e = e'
  | .panic, .panic => True
  | _, _ => False

def IterRel {σ τ : Type} (S : σ → τ → Prop) : IterRes σ → IterRes τ → Prop
  | .done s e, .done t e' => S s t ∧ e = e'
  | .panic, .panic => True
  | _, _ => False

theorem iterateArray_sim {σ τ : Type} {S : σ → τ → Prop} {json : Bytes} {c1 : σ → Bytes → Cb σ} {c2 : τ → Bytes → Cb τ}
    (hc : ∀ s t v, S s t → CbRel S (c1 s v) (c2 t v)) (path : List Bytes) {u : σ} {w : τ} (h : S u w) :
    IterRel S (IterateArray json c1 path u) (IterateArray json c2 path w) := by
  have step : ∀ i (s : IaSt σ) (t : IaSt τ), (s.start = t.start ∧ s.inQuote = t.inQuote ∧ s.level = t.level ∧ S s.user t.user) →
      CtlRel (fun (s : IaSt σ) (t : IaSt τ) => s.start = t.start ∧ s.inQuote = t.inQuote ∧ s.level = t.level ∧ S s.user t.user) (IterRel S)
        (iaBody json c1 i s) (iaBody json c2 i t) := by
    rintro i ⟨s1, s2, s3, s4⟩ ⟨t1, t2, t3, t4⟩ ⟨h1, h2, h3, h4⟩
    simp only at h1 h2 h3 h4
    subst h1 h2 h3
    unfold iaBody
    simp only
    cases json[i]? with
    | none => trivial
    | some c =>
      simp only
      split
      · exact ⟨rfl, rfl, rfl, h4⟩
      split
      · split
        · split
          · exact ⟨rfl, rfl, rfl, h4⟩
          · exact ⟨rfl, rfl, rfl, h4⟩
        · exact ⟨rfl, rfl, rfl, h4⟩
      split
      · exact ⟨rfl, rfl, rfl, h4⟩
      split
      · exact ⟨rfl, rfl, rfl, h4⟩
      split
      · split
        · exact ⟨h4, rfl⟩
        split
        · cases hv : slice json s1 i >>= cleanValue with
          | ok v =>
            have := hc s4 t4 v h4
            simp only
            cases e1 : c1 s4 v <;> cases e2 : c2 t4 v <;> rw [e1, e2] at this <;> try exact this.elim
            · exact ⟨this.1, this.2.2⟩
            · trivial
          | err e => trivial
          | panic => trivial
        · exact ⟨rfl, rfl, rfl, h4⟩
      split
      · cases hv : slice json s1 i >>= cleanValue with
        | ok v =>
          have := hc s4 t4 v h4
          simp only
          cases e1 : c1 s4 v with
          | panic => cases e2 : c2 t4 v <;> rw [e1, e2] at this <;> first | exact this.elim | trivial
          | ret s b e =>
            cases e2 : c2 t4 v <;> rw [e1, e2] at this <;> try exact this.elim
            obtain ⟨h5, rfl, rfl⟩ := this
            cases e with
            | some e => exact ⟨h5, rfl⟩
            | none =>
              cases b with
              | false => exact ⟨h5, rfl⟩
              | true => exact ⟨rfl, rfl, rfl, h5⟩
        | err e => trivial
        | panic => trivial
      · exact ⟨rfl, rfl, rfl, h4⟩
  unfold IterateArray
  split
  · exact ⟨h, rfl⟩
  split
  · split
    · exact ⟨h, rfl⟩
    · exact ⟨h, rfl⟩
  · simp only
    generalize (if (path.length == 0) = true then _ else _ : Out Nat) = st
    cases st with
    | panic => trivial
    | err e => exact ⟨h, rfl⟩
    | ok start =>
      simp only
      cases json[start]? with
      | none => trivial
      | some c =>
        simp only
        split
        · exact ⟨h, rfl⟩
        · have := forUp_sim (hi := json.length) step (i := start + 1) (s := ⟨start + 1, false, 0, u⟩) (t := ⟨start + 1, false, 0, w⟩) ⟨rfl, rfl, rfl, h⟩
          cases e1 : forUp json.length (iaBody json c1) (start + 1) ⟨start + 1, false, 0, u⟩ <;>
            cases e2 : forUp json.length (iaBody json c2) (start + 1) ⟨start + 1, false, 0, w⟩ <;>
            rw [e1, e2] at this <;> try exact this.elim
          · obtain ⟨h1, h2, h3, h4⟩ := this
            exact ⟨h4, by rw [h1]⟩
          · exact this

/-- The state of the member loop but for the callback's part. -/
def IkRel {σ τ : Type} (S : σ → τ → Prop) (s : IkSt σ) (t : IkSt τ) : Prop :=
  s.start = t.start ∧ s.stop = t.stop ∧ s.keyStart = t.keyStart ∧ s.keyEnd = t.keyEnd ∧ s.inQuote = t.inQuote ∧
  s.level = t.level ∧ s.key = t.key ∧ S s.user t.user

theorem iterateKV_sim {σ τ : Type} {S : σ → τ → Prop} {json : Bytes} {c1 : σ → Bytes → Bytes → Cb σ} {c2 : τ → Bytes → Bytes → Cb τ}
    (hc : ∀ s t k v, S s t → CbRel S (c1 s k v) (c2 t k v)) (path : List Bytes) {u : σ} {w : τ} (h : S u w) :
    IterRel S (IterateKeyValue json c1 path u) (IterateKeyValue json c2 path w) := by
  have step : ∀ i (s : IkSt σ) (t : IkSt τ), IkRel S s t → CtlRel (IkRel S) (IterRel S) (ikBody json c1 i s) (ikBody json c2 i t) := by
    rintro i ⟨s1, s2, s3, s4, s5, s6, s7, s8⟩ ⟨t1, t2, t3, t4, t5, t6, t7, t8⟩ ⟨h1, h2, h3, h4, h5, h6, h7, h8⟩
    simp only at h1 h2 h3 h4 h5 h6 h7 h8
    subst h1 h2 h3 h4 h5 h6 h7
    have r : ∀ a b c d e f g, IkRel S (⟨a, b, c, d, e, f, g, s8⟩ : IkSt σ) (⟨a, b, c, d, e, f, g, t8⟩ : IkSt τ) :=
      fun a b c d e f g => ⟨rfl, rfl, rfl, rfl, rfl, rfl, rfl, h8⟩
    unfold ikBody
    simp only
    cases json[i]? with
    | none => trivial
    | some c =>
      simp only
      split
      · exact r ..
      split
      · unfold ikQuote
        simp only
        split
        · split
          · exact r ..
          · exact r ..
          · exact r ..
        · exact r ..
      split
      · exact r ..
      split
      · exact r ..
      split
      · split
        · split
          · cases hv : ikValue json ((firstNS json s1 i).getD s1) ((lastNS json ((firstNS json s1 i).getD s1) i).getD s2) with
            | ok v =>
              have := hc s8 t8 s7 v h8
              simp only
              cases e1 : c1 s8 s7 v <;> cases e2 : c2 t8 s7 v <;> rw [e1, e2] at this <;> try exact this.elim
              · exact ⟨this.1, rfl⟩
              · trivial
            | err e => trivial
            | panic => trivial
          · exact ⟨h8, rfl⟩
        · exact r ..
      split
      · split
        · cases hv : ikValue json ((firstNS json s1 i).getD s1) ((lastNS json ((firstNS json s1 i).getD s1 + 1) i).getD (i - 1)) with
          | ok v =>
            have := hc s8 t8 s7 v h8
            simp only
            cases e1 : c1 s8 s7 v with
            | panic => cases e2 : c2 t8 s7 v <;> rw [e1, e2] at this <;> first | exact this.elim | trivial
            | ret s b e =>
              cases e2 : c2 t8 s7 v <;> rw [e1, e2] at this <;> try exact this.elim
              obtain ⟨h5, rfl, rfl⟩ := this
              cases e with
              | some e => exact ⟨h5, rfl⟩
              | none =>
                cases b with
                | false => exact ⟨h5, rfl⟩
                | true => exact ⟨rfl, rfl, rfl, rfl, rfl, rfl, rfl, h5⟩
          | err e => trivial
          | panic => trivial
        · split
          · cases hv : slice json ((s3 : Int) + 1) s4 with
            | ok v => exact r ..
            | err e => trivial
            | panic => trivial
          · exact r ..
      · exact r ..
  unfold IterateKeyValue
  split
  · exact ⟨h, rfl⟩
  · cases valueStart json path with
    | panic => trivial
    | err e => exact ⟨h, rfl⟩
    | ok start =>
      simp only
      cases json[start]? with
      | none => trivial
      | some c =>
        simp only
        split
        · have := forUp_sim (hi := json.length) step (i := start) (s := ⟨start, 0, 0, 0, false, 0, [], u⟩) (t := ⟨start, 0, 0, 0, false, 0, [], w⟩)
            ⟨rfl, rfl, rfl, rfl, rfl, rfl, rfl, h⟩
          cases e1 : forUp json.length (ikBody json c1) start ⟨start, 0, 0, 0, false, 0, [], u⟩ <;>
            cases e2 : forUp json.length (ikBody json c2) start ⟨start, 0, 0, 0, false, 0, [], w⟩ <;>
            rw [e1, e2] at this <;> try exact this.elim
          · exact ⟨this.2.2.2.2.2.2.2, rfl⟩
          · exact this
        · exact ⟨h, rfl⟩

end Jin
