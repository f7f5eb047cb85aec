import Verif.Model.Core
/-!
# Proof.Loop — reasoning about `forUp`, text segments and the escape look-back
-/

namespace Jin

section forUp
variable {σ ρ : Type} {hi : Nat} {body : Nat → σ → Ctl σ ρ} {i j : Nat} {s s' : σ}

theorem forUp_next (h : i < hi) (hb : body i s = .next s') :
    forUp hi body i s = forUp hi body (i + 1) s' := by
  rw [forUp]; simp [h, hb]

theorem forUp_goto (h : i < hi) (hb : body i s = .goto j s') (hj : i ≤ j) :
    forUp hi body i s = forUp hi body (j + 1) s' := by
  rw [forUp]; simp [h, hb, Nat.max_eq_right hj]

theorem forUp_brk (h : i < hi) (hb : body i s = .brk s') :
    forUp hi body i s = .done s' := by
  rw [forUp]; simp [h, hb]

theorem forUp_ret {r : ρ} (h : i < hi) (hb : body i s = .ret r) :
    forUp hi body i s = .ret r := by
  rw [forUp]; simp [h, hb]

theorem forUp_end (h : hi ≤ i) : forUp hi body i s = .done s := by
  rw [forUp]; simp [Nat.not_lt.2 h]

end forUp

/-! ### Segments -/

/-- The bytes of `json` from index `i` on start with `s`. -/
def Seg (json : Bytes) (i : Nat) (s : Bytes) : Prop := s <+: json.drop i

theorem Seg.nil (json : Bytes) (i : Nat) : Seg json i [] := List.nil_prefix

theorem seg_cons {json : Bytes} {i : Nat} {c : UInt8} {s : Bytes} :
    Seg json i (c :: s) ↔ json[i]? = some c ∧ Seg json (i + 1) s := by
  unfold Seg
  rw [← List.drop_drop, ← List.head?_drop]
  cases h : json.drop i with
  | nil => simp
  | cons d t => simp [List.cons_prefix_cons, eq_comm]

theorem seg_append {json : Bytes} {a b : Bytes} : ∀ {i : Nat},
    Seg json i (a ++ b) ↔ Seg json i a ∧ Seg json (i + a.length) b := by
  induction a with
  | nil => intro i; simp [Seg.nil]
  | cons c a ih =>
    intro i
    rw [List.cons_append, seg_cons, seg_cons, ih, List.length_cons, and_assoc,
      show i + 1 + a.length = i + (a.length + 1) by omega]

theorem seg_self (json : Bytes) : Seg json 0 json := by simp [Seg]

theorem Seg.le {json s : Bytes} {i : Nat} (h : Seg json i s) (hs : s ≠ []) :
    i + s.length ≤ json.length := by
  have := h.length_le
  rw [List.length_drop] at this
  have : 0 < s.length := List.length_pos_iff.2 hs
  omega

theorem Seg.drop_take {json s : Bytes} {i : Nat} (h : Seg json i s) :
    (json.drop i).take s.length = s := by
  obtain ⟨t, ht⟩ := h
  rw [← ht]; simp

theorem lt_of_getElem? {json : Bytes} {i : Nat} {c : UInt8} (h : json[i]? = some c) :
    i < json.length := (List.getElem?_eq_some_iff.1 h).1

/-- Every index of a segment has the byte of the segment. -/
theorem Seg.getElem? {json s : Bytes} {i j : Nat} {c : UInt8} (h : Seg json i s)
    (hj : s[j]? = some c) : json[i + j]? = some c := by
  obtain ⟨t, ht⟩ := h
  have : (json.drop i)[j]? = some c := by
    rw [← ht, List.getElem?_append_left (lt_of_getElem? hj)]; exact hj
  rwa [List.getElem?_drop] at this

/-! ### Escapes -/

/-- Number of consecutive backslashes that end just before index `i`. -/
def tb (json : Bytes) : Nat → Nat
  | 0 => 0
  | n + 1 => if json[n]? = some 92 then tb json n + 1 else 0

theorem tb_le (json : Bytes) : ∀ i, tb json i ≤ i
  | 0 => Nat.le_refl _
  | n + 1 => by
    unfold tb
    split
    · exact Nat.succ_le_succ (tb_le json n)
    · omega

theorem quoteScan_aux (json : Bytes) (i : Nat) : ∀ m, m ≤ i → tb json m < m →
    quoteScan json i m = if (i - m + tb json m) % 2 = 0 then .real else .escaped
  | 0, _, h => by omega
  | n + 1, hm, h => by
    unfold quoteScan tb
    unfold tb at h
    by_cases hc : json[n]? = some 92
    · simp only [hc, if_true] at h ⊢
      simp only [bne_self_eq_false, Bool.false_eq_true, if_false]
      rw [quoteScan_aux json i n (by omega) (by omega),
        show i - n + tb json n = i - (n + 1) + (tb json n + 1) by omega]
    · simp only [hc, if_false, bne_iff_ne, ne_eq, not_false_eq_true, if_true]
      have : (i - n) % 2 = 0 ↔ ¬ (i - (n + 1) + 0) % 2 = 0 := by omega
      by_cases h0 : (i - n) % 2 = 0
      · simp only [h0, not_true_eq_false, if_false]
        rw [if_neg (this.1 h0)]
      · simp only [h0, not_false_eq_true, if_true]
        rw [if_pos (by rw [this] at h0; exact Classical.not_not.1 h0)]

/-- The backward scan, in terms of the number of backslashes before the quote. -/
theorem quoteScan_eq {json : Bytes} {i : Nat} (h : tb json i < i) :
    quoteScan json i i = if tb json i % 2 = 0 then .real else .escaped := by
  rw [quoteScan_aux json i i (Nat.le_refl _) h]; simp

/-- There is a byte before index `i` and it is not a backslash. -/
def PrevOk (json : Bytes) (i : Nat) : Prop := 0 < i ∧ tb json i = 0

theorem prevOk_succ {json : Bytes} {i : Nat} {c : UInt8} (h : json[i]? = some c) (hc : c ≠ 92) :
    PrevOk json (i + 1) := by
  refine ⟨Nat.succ_pos _, ?_⟩
  simp [tb, h, hc]

theorem PrevOk.scan {json : Bytes} {i : Nat} (h : PrevOk json i) : quoteScan json i i = .real := by
  rw [quoteScan_eq (by rw [h.2]; exact h.1), h.2]; rfl

/-- A segment that ends in something other than a backslash. -/
theorem prevOk_seg {json s : Bytes} {i : Nat} (h : Seg json i s) (hs : s ≠ [])
    (hl : s.getLast? ≠ some 92) : PrevOk json (i + s.length) := by
  have hpos : 0 < s.length := List.length_pos_iff.2 hs
  have hlast : s[s.length - 1]? = some (s.getLast hs) := by
    rw [List.getLast_eq_getElem, List.getElem?_eq_getElem]
  have := h.getElem? hlast
  have h2 := prevOk_succ this (by
    intro hc; apply hl; rw [List.getLast?_eq_some_getLast hs, hc])
  rwa [show i + (s.length - 1) + 1 = i + s.length by omega] at h2

/-- Backslashes do not extend back over a byte that is not a backslash. -/
theorem tb_lt {json : Bytes} {a : Nat} {c : UInt8} (ha : json[a]? = some c) (hc : c ≠ 92) :
    ∀ i, a < i → tb json i + a < i
  | 0, h => by omega
  | n + 1, h => by
    unfold tb
    split
    · rename_i h1
      have : a ≠ n := by rintro rfl; rw [ha] at h1; exact hc (by simpa using h1)
      have := tb_lt ha hc n (by omega)
      omega
    · omega

theorem tb_succ_bs {json : Bytes} {i : Nat} (h : json[i]? = some 92) :
    tb json (i + 1) = tb json i + 1 := by simp [tb, h]

theorem tb_succ_ne {json : Bytes} {i : Nat} {c : UInt8} (h : json[i]? = some c) (hc : c ≠ 92) :
    tb json (i + 1) = 0 := by simp [tb, h, hc]

end Jin
