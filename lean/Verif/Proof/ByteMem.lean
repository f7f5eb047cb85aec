import Verif.Model.ByteMem
import Verif.Props.Bytes
/-!
# Proof.ByteMem — slices, `append` and `replace` on memory
-/

namespace Jin

/-- A slice header that Go can have: it lies in its array. -/
def BSlice.ok (h : BHeap) (s : BSlice) : Prop := s.len ≤ s.cap ∧ s.off + s.cap ≤ (h.block s.blk).length

variable {h k : BHeap} {s : BSlice} {grow : Nat → Nat} {x y : Bytes}

theorem nil_ok : BSlice.nil.ok h := ⟨Nat.le_refl _, by simp [BSlice.nil]⟩

theorem nil_read : h.read .nil = [] := by simp [BHeap.read, BSlice.nil]

theorem bread_length (hs : s.ok h) : (h.read s).length = s.len := by
  obtain ⟨h1, h2⟩ := hs
  simp only [BHeap.read, List.length_take, List.length_drop]
  omega

theorem block_append (hb : s.blk < h.length) : BHeap.block (h ++ k) s.blk = h.block s.blk := by
  unfold BHeap.block
  rw [List.getElem?_append_left hb]

theorem bblock_none (hb : ¬ s.blk < h.length) : h.block s.blk = [] := by
  unfold BHeap.block
  rw [List.getElem?_eq_none (by omega)]
  rfl

/-- New arrays do not change what a slice of old ones reads. -/
theorem read_append (hs : s.ok h) : BHeap.read (h ++ k) s = h.read s := by
  by_cases hb : s.blk < h.length
  · unfold BHeap.read
    rw [block_append hb]
  · have : s.len = 0 := by
      have := hs.2
      have := hs.1
      rw [bblock_none hb] at *
      simp only [List.length_nil] at *
      omega
    simp [BHeap.read, this]

theorem ok_append (hs : s.ok h) : s.ok (h ++ k) := by
  by_cases hb : s.blk < h.length
  · exact ⟨hs.1, by rw [block_append hb]; exact hs.2⟩
  · have h2 := hs.2
    have h1 := hs.1
    rw [bblock_none hb] at h2
    simp only [List.length_nil] at h2
    exact ⟨h1, by omega⟩

/-! ### A new array -/

/-- Memory with one more array, which begins with `x` and has `n` more cells. -/
def fresh (h : BHeap) (x : Bytes) (n : Nat) : BHeap := h ++ [x ++ List.replicate n 0]
def freshS (h : BHeap) (x : Bytes) (n : Nat) : BSlice := ⟨h.length, 0, x.length, x.length + n⟩

theorem fresh_block {n : Nat} : BHeap.block (fresh h x n) h.length = x ++ List.replicate n 0 := by
  simp [BHeap.block, fresh]

theorem fresh_ok {n : Nat} : (freshS h x n).ok (fresh h x n) := by
  refine ⟨by simp [freshS], ?_⟩
  show 0 + (x.length + n) ≤ (BHeap.block (fresh h x n) h.length).length
  rw [fresh_block]
  simp

theorem fresh_read {n : Nat} : BHeap.read (fresh h x n) (freshS h x n) = x := by
  show ((BHeap.block (fresh h x n) h.length).drop 0).take x.length = x
  rw [fresh_block]
  simp

theorem make_fresh {n : Nat} : h.make 0 n = (fresh h [] n, freshS h [] n) := by
  simp [BHeap.make, fresh, freshS]

theorem ofString_fresh : h.ofString grow x = (fresh h x (grow x.length), freshS h x (grow x.length)) := rfl

theorem modify_last {α : Type} (f : α → α) (c : α) : ∀ h : List α, (h ++ [c]).modify h.length f = h ++ [f c]
  | [] => rfl
  | a :: h => by simp [modify_last f c h]

theorem write_last {c : Bytes} {n : Nat} : BHeap.write (h ++ [c]) h.length n y = h ++ [c.take n ++ y ++ c.drop (n + y.length)] :=
  modify_last _ c h

theorem append_fresh {n : Nat} (hn : y.length ≤ n) :
    BHeap.append grow (fresh h x n) (freshS h x n) y = (fresh h (x ++ y) (n - y.length), freshS h (x ++ y) (n - y.length)) := by
  unfold BHeap.append
  rw [if_pos (by simp [freshS]; omega)]
  have h1 : BHeap.write (fresh h x n) (freshS h x n).blk ((freshS h x n).off + (freshS h x n).len) y = fresh h (x ++ y) (n - y.length) := by
    simp only [fresh, freshS, Nat.zero_add, write_last]
    simp [List.drop_append, List.drop_eq_nil_of_le]
  rw [h1]
  simp only [freshS, List.length_append]
  congr 2
  omega

theorem modify_above {α : Type} (f : α → α) : ∀ (h new : List α) (b : Nat), h.length ≤ b → (h ++ new).modify b f = h ++ new.modify (b - h.length) f
  | [], new, b, _ => rfl
  | a :: h, new, 0, hb => by simp at hb
  | a :: h, new, b + 1, hb => by
    have := modify_above f h new b (by simpa using hb)
    simp [this]

/-- Appending to a slice of a new array leaves the old ones alone. -/
theorem append_above {new : List Bytes} (hs : h.length ≤ s.blk) :
    ∃ new', (BHeap.append grow (h ++ new) s x).1 = h ++ new' ∧ h.length ≤ (BHeap.append grow (h ++ new) s x).2.blk := by
  unfold BHeap.append
  split
  · exact ⟨_, modify_above _ h new _ hs, hs⟩
  · exact ⟨_, List.append_assoc _ _ _, by simp⟩

/-! ### Slice expressions -/

theorem sub_spec {lo hi : Nat} (h1 : lo ≤ hi) (h2 : hi ≤ s.cap) :
    s.sub lo hi = some ⟨s.blk, s.off + lo, hi - lo, s.cap - lo⟩ := by
  unfold BSlice.sub
  rw [if_pos ⟨by omega, by omega, by omega⟩]
  have : ((hi : Int) - lo).toNat = hi - lo := by omega
  simp [this]

/-- A part of a slice reads the part of its bytes. -/
theorem sub_read {lo hi c : Nat} (h1 : lo ≤ hi) (h2 : hi ≤ s.len) :
    h.read ⟨s.blk, s.off + lo, hi - lo, c⟩ = ((h.read s).drop lo).take (hi - lo) := by
  simp only [BHeap.read, List.drop_take, List.take_take, List.drop_drop]
  congr 1
  omega

theorem sub_ok {lo hi : Nat} (hs : s.ok h) (h1 : lo ≤ hi) (h2 : hi ≤ s.cap) : (BSlice.mk s.blk (s.off + lo) (hi - lo) (s.cap - lo)).ok h := by
  obtain ⟨h3, h4⟩ := hs
  exact ⟨by simp only; omega, by simp only; omega⟩

/-! ### `replace` -/

/-- `replace` in memory is `replace` on the bytes, in one new array of just the right size. -/
theorem replaceMem_spec {json v : BSlice} {start stop : Int} (hj : json.ok h) (hv : v.ok h)
    (hr : start ≤ stop ∨ start ≤ json.len) :
    match replace (h.read json) (h.read v) start stop with
    | .ok b => replaceMem grow h json v start stop = (some (freshS h b 0), fresh h b 0)
    | .err _ => False
    | .panic => ∃ new, replaceMem grow h json v start stop = (none, h ++ new) := by
  have hjl := bread_length hj
  have hvl := bread_length hv
  unfold replaceMem
  by_cases hin : 0 ≤ start ∧ start ≤ json.len ∧ 0 ≤ stop ∧ stop ≤ json.len
  · obtain ⟨h1, h2, h3, h4⟩ := hin
    obtain ⟨a, rfl⟩ := Int.eq_ofNat_of_zero_le h1
    obtain ⟨b, rfl⟩ := Int.eq_ofNat_of_zero_le h3
    have ha : a ≤ json.len := by omega
    have hb : b ≤ json.len := by omega
    have e1 : slice (h.read json) (0 : Int) (a : Int) = .ok ((h.read json).take a) := by
      have := slice_in (json := h.read json) (Nat.zero_le a) (by omega)
      simpa using this
    have e2 : slice (h.read json) (b : Int) ((h.read json).length : Int) = .ok ((h.read json).drop b) := by
      have := slice_in (json := h.read json) (i := b) (j := (h.read json).length) (by omega) (Nat.le_refl _)
      rw [this, List.take_of_length_le (by simp)]
    simp only [replace, e1, e2, Out.bind_ok, Out.pure_eq]
    rw [if_neg (by omega)]
    have hcap := hj.1
    simp only [make_fresh]
    have s1 : json.sub 0 (a : Int) = some ⟨json.blk, json.off + 0, a - 0, json.cap - 0⟩ := sub_spec (Nat.zero_le a) (by omega)
    have s2 : json.sub (b : Int) (json.len : Int) = some ⟨json.blk, json.off + b, json.len - b, json.cap - b⟩ := sub_spec hb hcap
    simp only [s1, s2]
    have r1 : ∀ x n, BHeap.read (fresh h x n) ⟨json.blk, json.off + 0, a - 0, json.cap - 0⟩ = (h.read json).take a := by
      intro x n
      rw [fresh, read_append (sub_ok hj (Nat.zero_le a) (by omega)), sub_read (Nat.zero_le a) ha]
      simp
    have r2 : ∀ x n, BHeap.read (fresh h x n) v = h.read v := fun x n => read_append hv
    have r3 : ∀ x n, BHeap.read (fresh h x n) ⟨json.blk, json.off + b, json.len - b, json.cap - b⟩ = (h.read json).drop b := by
      intro x n
      rw [fresh, read_append (sub_ok hj hb hcap), sub_read hb (Nat.le_refl _), List.take_of_length_le (by simp; omega)]
    simp only [r1]
    have hn : ((json.len : Int) - b + a + v.len).toNat = json.len - b + a + v.len := by omega
    rw [hn]
    have l1 : ((h.read json).take a).length = a := by simp; omega
    have l3 : ((h.read json).drop b).length = json.len - b := by simp; omega
    rw [append_fresh (by omega)]
    simp only [r2]
    rw [append_fresh (by omega)]
    simp only [r3]
    rw [append_fresh (by omega)]
    have : json.len - b + a + v.len - (List.take a (h.read json)).length - (h.read v).length - (List.drop b (h.read json)).length = 0 := by
      omega
    rw [this, List.nil_append]
  · have hp : replace (h.read json) (h.read v) start stop = .panic := by
      unfold replace slice
      rw [hjl]
      by_cases hs : 0 ≤ (0 : Int) ∧ 0 ≤ start ∧ start ≤ (json.len : Int)
      · rw [if_pos hs, if_neg (by omega)]
        rfl
      · rw [if_neg hs]
        rfl
    rw [hp]
    simp only
    split
    · exact ⟨[], by simp⟩
    · simp only [make_fresh]
      cases h1 : json.sub 0 start with
      | none => exact ⟨_, rfl⟩
      | some a =>
        simp only
        have hstop : json.sub stop json.len = none := by
          unfold BSlice.sub at h1 ⊢
          split at h1
          · rw [if_neg (by omega)]
          · cases h1
        obtain ⟨n1, e1, b1⟩ := append_above (grow := grow) (new := [[] ++ List.replicate ((json.len : Int) - stop + start + v.len).toNat 0])
          (s := freshS h [] ((json.len : Int) - stop + start + v.len).toNat) (h := h)
          (x := BHeap.read (fresh h [] ((json.len : Int) - stop + start + v.len).toNat) a) (Nat.le_refl _)
        obtain ⟨n2, e2, -⟩ := append_above (grow := grow) (new := n1) (h := h) (x := BHeap.read (h ++ n1) v) b1
        simp only [fresh] at e1 e2 ⊢
        rw [e1]
        simp only [hstop]
        exact ⟨n2, by rw [e2]⟩

end Jin
