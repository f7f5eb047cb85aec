import Verif.Spec.Scan
import Verif.Proof.NoPanic
import Verif.Model.Iter
/-!
# Proof.Scan — the loops and `Spec.scan` on arbitrary bytes
-/

namespace Jin
open Spec

/-- The reading of `json` from `a` up to `i`. -/
def upto (json : Bytes) (a i : Nat) : Scan := scan ((json.drop a).take (i - a))

theorem upto_self (json : Bytes) (a : Nat) : upto json a a = .init := by
  simp [upto, scan]

theorem take_succ' {json : Bytes} {a i : Nat} {c : UInt8} (h : a ≤ i) (hc : json[i]? = some c) :
    (json.drop a).take (i + 1 - a) = (json.drop a).take (i - a) ++ [c] := by
  have h1 : i + 1 - a = i - a + 1 := by omega
  rw [h1, List.take_add_one, List.getElem?_drop, show a + (i - a) = i by omega, hc]
  rfl

theorem upto_succ {json : Bytes} {a i : Nat} {c : UInt8} (h : a ≤ i) (hc : json[i]? = some c) :
    upto json a (i + 1) = (upto json a i).step c := by
  unfold upto scan
  rw [take_succ' h hc, List.foldl_append]
  rfl

/-- A loop that has `q` for "in a string" and `lv` for the open brackets sees what `scan` sees. -/
structure Sees (json : Bytes) (a i : Nat) (q : Bool) (lv : Int) : Prop where
  le : a ≤ i
  str : (upto json a i).inStr = q
  lev : (upto json a i).depth = lv
  esc : q = true → ((upto json a i).esc = true ↔ tb json i % 2 = 1) ∧ tb json i < i

theorem Sees.init (json : Bytes) (a : Nat) : Sees json a a false 0 :=
  ⟨Nat.le_refl _, by rw [upto_self]; rfl, by rw [upto_self]; rfl, by simp⟩

variable {json : Bytes} {a i : Nat} {c : UInt8} {q : Bool} {lv : Int}

theorem tb_next (hc : json[i]? = some c) : tb json (i + 1) = if c = 92 then tb json i + 1 else 0 := by
  rw [tb, hc]; simp

/-- In a string every byte but the closing quote keeps the state. -/
theorem Sees.inside (h : Sees json a i true lv) (hc : json[i]? = some c) (hq : c ≠ 34 ∨ tb json i % 2 = 1) :
    Sees json a (i + 1) true lv ∧ (upto json a (i + 1)).closed = (upto json a i).closed := by
  obtain ⟨h1, h2, h3, h4⟩ := h
  obtain ⟨h4, h5⟩ := h4 rfl
  have hs := upto_succ h1 hc
  have ht := tb_next hc
  by_cases he : (upto json a i).esc = true
  · have : (upto json a (i + 1)) = { upto json a i with esc := false } := by rw [hs]; simp [Scan.step, h2, he]
    have ho := h4.1 he
    refine ⟨⟨by omega, by rw [this]; exact h2, by rw [this]; exact h3, fun _ => ⟨?_, ?_⟩⟩, by rw [this]⟩
    · rw [this, ht]; split <;> simp <;> omega
    · rw [ht]; split <;> omega
  · have hodd : ¬ tb json i % 2 = 1 := fun h => he (h4.2 h)
    have hc34 : c ≠ 34 := hq.resolve_right hodd
    by_cases h92 : c = 92
    · have : (upto json a (i + 1)) = { upto json a i with esc := true } := by rw [hs]; simp [Scan.step, h2, he, h92]
      refine ⟨⟨by omega, by rw [this]; exact h2, by rw [this]; exact h3, fun _ => ⟨?_, ?_⟩⟩, by rw [this]⟩
      · rw [this, ht, if_pos h92]; simp; omega
      · rw [ht, if_pos h92]; omega
    · have : (upto json a (i + 1)) = upto json a i := by rw [hs]; simp [Scan.step, h2, he, h92, hc34]
      refine ⟨⟨by omega, by rw [this]; exact h2, by rw [this]; exact h3, fun _ => ⟨?_, ?_⟩⟩, by rw [this]⟩
      · rw [this, ht, if_neg h92]; simp [he]
      · rw [ht, if_neg h92]; omega

theorem step_esc {s : Scan} {c : UInt8} (h : s.inStr = false → s.esc = false) : (s.step c).inStr = false → (s.step c).esc = false := by
  intro hf
  unfold Scan.step at hf ⊢
  by_cases hin : s.inStr = true
  · rw [if_pos hin] at hf ⊢
    by_cases he : s.esc = true
    · rw [if_pos he]
    · rw [if_neg he] at hf ⊢
      by_cases h92 : c = 92
      · rw [if_pos h92] at hf; simp [hin] at hf
      · rw [if_neg h92] at hf ⊢
        by_cases h34 : c = 34
        · rw [if_pos h34]; simpa using he
        · rw [if_neg h34]; simpa using he
  · have hin : s.inStr = false := by simpa using hin
    have := h hin
    simp only [hin, Bool.false_eq_true, if_false] at hf ⊢
    by_cases h34 : c = 34
    · rw [if_pos h34] at hf; simp at hf
    · rw [if_neg h34]
      by_cases h1 : c = 91 ∨ c = 123
      · rw [if_pos h1]; exact this
      · rw [if_neg h1]
        by_cases h2 : c = 93 ∨ c = 125
        · rw [if_pos h2]; exact this
        · rw [if_neg h2]; exact this

/-- Only inside a string is a byte escaped. -/
theorem scan_esc (t : Text) : (scan t).inStr = false → (scan t).esc = false := by
  have : ∀ (t : Text) (s : Scan), (s.inStr = false → s.esc = false) → (t.foldl Scan.step s).inStr = false → (t.foldl Scan.step s).esc = false := by
    intro t
    induction t with
    | nil => intro s h; exact h
    | cons c t ih => intro s h; exact ih _ (step_esc h)
  exact this t _ (fun _ => rfl)

/-- A quote outside opens a string. -/
theorem Sees.opens (h : Sees json a i false lv) (hc : json[i]? = some 34) :
    Sees json a (i + 1) true lv ∧ (upto json a (i + 1)).closed = (upto json a i).closed := by
  obtain ⟨h1, h2, h3, -⟩ := h
  have ht := tb_next hc
  have hesc : (upto json a i).esc = false := scan_esc _ h2
  have : (upto json a (i + 1)) = { upto json a i with inStr := true } := by rw [upto_succ h1 hc]; simp [Scan.step, h2]
  refine ⟨⟨by omega, by rw [this], by rw [this]; exact h3, fun _ => ⟨?_, ?_⟩⟩, by rw [this]⟩
  · rw [this, ht]; simp [hesc]
  · rw [ht]; simp

/-- The closing quote. -/
theorem Sees.closes (h : Sees json a i true lv) (hc : json[i]? = some 34) (ht : tb json i % 2 = 0) :
    Sees json a (i + 1) false lv ∧ (upto json a (i + 1)).closed = true := by
  obtain ⟨h1, h2, h3, h4⟩ := h
  have he : (upto json a i).esc = false := by
    cases h : (upto json a i).esc with
    | false => rfl
    | true => have := (h4 rfl).1.1 h; omega
  have : (upto json a (i + 1)) = { upto json a i with inStr := false, closed := true } := by
    rw [upto_succ h1 hc]; simp [Scan.step, h2, he]
  exact ⟨⟨by omega, by rw [this], by rw [this]; exact h3, by simp⟩, by rw [this]⟩

/-- What the escape scan of the loops decides. -/
theorem Sees.quote (h : Sees json a i true lv) (hc : json[i]? = some 34) :
    (quoteScan json i i = .real ∧ Sees json a (i + 1) false lv ∧ (upto json a (i + 1)).closed = true) ∨
    (quoteScan json i i = .escaped ∧ Sees json a (i + 1) true lv ∧ (upto json a (i + 1)).closed = (upto json a i).closed) := by
  have hq := quoteScan_eq (h.esc rfl).2
  by_cases ht : tb json i % 2 = 0
  · rw [if_pos ht] at hq
    exact .inl ⟨hq, h.closes hc ht⟩
  · rw [if_neg ht] at hq
    exact .inr ⟨hq, h.inside hc (.inr (by omega))⟩

/-- Outside strings. -/
theorem Sees.outside (h : Sees json a i false lv) (hc : json[i]? = some c) (hq : c ≠ 34) :
    Sees json a (i + 1) false (if c = 91 ∨ c = 123 then lv + 1 else if c = 93 ∨ c = 125 then lv - 1 else lv) ∧
      (upto json a (i + 1)).closed = (upto json a i).closed := by
  obtain ⟨h1, h2, h3, -⟩ := h
  have hs := upto_succ h1 hc
  have : (upto json a (i + 1)) = { upto json a i with depth :=
      if c = 91 ∨ c = 123 then lv + 1 else if c = 93 ∨ c = 125 then lv - 1 else lv } := by
    rw [hs]
    simp only [Scan.step, h2, hq, if_false, Bool.false_eq_true]
    split
    · rw [← h3]
    · split
      · rw [← h3]
      · rw [← h3, ← h2]
  exact ⟨⟨by omega, by rw [this]; exact h2, by rw [this], by simp⟩, by rw [this]⟩

/-! ### Ends of a region -/

theorem firstNS_spec {json : Bytes} {lo hi : Nat} : (∃ j c, firstNS json lo hi = some j ∧ lo ≤ j ∧ j < hi ∧ json[j]? = some c ∧ space c = false ∧
      ∀ m b, lo ≤ m → m < j → json[m]? = some b → space b = true) ∨
    (firstNS json lo hi = none ∧ ∀ m b, lo ≤ m → m < hi → m < json.length → json[m]? = some b → space b = true) := by
  fun_induction firstNS json lo hi with
  | case1 lo hlt hn =>
    exact .inr ⟨rfl, fun m b h1 h2 h3 hb => by have := List.getElem?_eq_none_iff.1 hn; omega⟩
  | case2 lo hlt c hc hs ih =>
    rcases ih with ⟨j, d, h1, h2, h3, h4, h5, h6⟩ | ⟨h1, h2⟩
    · refine .inl ⟨j, d, h1, by omega, h3, h4, h5, fun m b hm hj hb => ?_⟩
      by_cases h : m = lo
      · subst h; rw [hc] at hb; injection hb with hb; subst hb; exact hs
      · exact h6 m b (by omega) hj hb
    · refine .inr ⟨h1, fun m b hm hj hl hb => ?_⟩
      by_cases h : m = lo
      · subst h; rw [hc] at hb; injection hb with hb; subst hb; exact hs
      · exact h2 m b (by omega) hj hl hb
  | case3 lo hlt c hc hs => exact .inl ⟨lo, c, rfl, Nat.le_refl _, hlt, hc, by simpa using hs, fun m b h1 h2 => by omega⟩
  | case4 lo hlt => exact .inr ⟨rfl, fun m b h1 h2 => by omega⟩

theorem lastNS_spec {json : Bytes} {lo : Nat} : ∀ {hi : Nat}, hi ≤ json.length →
    (∃ j c, lastNS json lo hi = some j ∧ lo ≤ j ∧ j < hi ∧ json[j]? = some c ∧ space c = false ∧
      ∀ m b, j < m → m < hi → json[m]? = some b → space b = true) ∨
    (lastNS json lo hi = none ∧ ∀ m b, lo ≤ m → m < hi → json[m]? = some b → space b = true)
  | 0, _ => .inr ⟨rfl, fun m b h1 h2 => by omega⟩
  | n + 1, hn => by
    rw [lastNS]
    by_cases h : n < lo
    · rw [if_pos h]; exact .inr ⟨rfl, fun m b h1 h2 => by omega⟩
    · rw [if_neg h]
      obtain ⟨c, hc⟩ : ∃ c, json[n]? = some c := ⟨json[n], List.getElem?_eq_getElem (by omega)⟩
      rw [hc]
      simp only
      by_cases hs : space c = true
      · rw [if_pos hs]
        rcases lastNS_spec (lo := lo) (show n ≤ json.length by omega) with ⟨j, d, h1, h2, h3, h4, h5, h6⟩ | ⟨h1, h2⟩
        · refine .inl ⟨j, d, h1, h2, by omega, h4, h5, fun m b hm hj hb => ?_⟩
          by_cases h : m = n
          · subst h; rw [hc] at hb; injection hb with hb; subst hb; exact hs
          · exact h6 m b hm (by omega) hb
        · refine .inr ⟨h1, fun m b hm hj hb => ?_⟩
          by_cases h : m = n
          · subst h; rw [hc] at hb; injection hb with hb; subst hb; exact hs
          · exact h2 m b hm (by omega) hb
      · rw [if_neg hs]
        exact .inl ⟨n, c, rfl, by omega, by omega, hc, by simpa using hs, fun m b h1 h2 => by omega⟩

/-! ### Quotes come in pairs -/

/-- Of the quotes from `start` on: in a string one has been seen, outside there is never just one. -/
def Paired (json : Bytes) (start i : Nat) (q : Bool) : Prop :=
  if q then ∃ k, start ≤ k ∧ k < i ∧ json[k]? = some 34
  else ∀ k, start ≤ k → k < i → json[k]? = some 34 → ∃ r, r ≠ k ∧ start ≤ r ∧ r < i ∧ json[r]? = some 34

variable {start : Nat}

theorem Paired.none (i : Nat) : Paired json i i false := by
  intro k h1 h2; omega

theorem Paired.next (h : Paired json start i q) (hc : json[i]? = some c) (hq : c ≠ 34 ∨ q = true) : Paired json start (i + 1) q := by
  cases q with
  | true => obtain ⟨k, h1, h2, h3⟩ := h; exact ⟨k, h1, by omega, h3⟩
  | false =>
    have hq : c ≠ 34 := hq.resolve_right (by simp)
    intro k h1 h2 h3
    by_cases hk : k = i
    · subst hk; rw [hc] at h3; injection h3 with h3; exact absurd h3 hq
    · obtain ⟨r, r1, r2, r3, r4⟩ := h k h1 (by omega) h3
      exact ⟨r, r1, r2, by omega, r4⟩

theorem Paired.opens (h : start ≤ i) (hc : json[i]? = some 34) : Paired json start (i + 1) true := ⟨i, h, by omega, hc⟩

theorem Paired.closes (h : Paired json start i true) (hc : json[i]? = some 34) : Paired json start (i + 1) false := by
  obtain ⟨k, h1, h2, h3⟩ := h
  intro m m1 m2 m3
  by_cases hm : m = k
  · exact ⟨i, by omega, by omega, by omega, hc⟩
  · exact ⟨k, by omega, h1, by omega, h3⟩

/-- Whitespace before does not matter. -/
theorem Paired.trim {s' : Nat} (h : Paired json start i false) (hs : start ≤ s')
    (hw : ∀ m b, start ≤ m → m < s' → json[m]? = some b → space b = true) : Paired json s' i false := by
  have key : ∀ m, start ≤ m → json[m]? = some 34 → s' ≤ m := fun m h1 h2 => by
    rcases Nat.lt_or_ge m s' with hlt | hge
    · exact absurd (hw m 34 h1 hlt h2) (by decide)
    · exact hge
  intro k h1 h2 h3
  obtain ⟨r, r1, r2, r3, r4⟩ := h k (by omega) h2 h3
  exact ⟨r, r1, key r r2 r4, r3, r4⟩

theorem getElem_ex (h : i < json.length) : ∃ c, json[i]? = some c := ⟨json[i], List.getElem?_eq_getElem h⟩

theorem slice_range {lo hi : Nat} (h1 : lo ≤ hi) (h2 : hi ≤ json.length) : slice json lo hi = .ok ((json.drop lo).take (hi - lo)) := by
  unfold slice
  rw [if_pos (by omega)]
  simp

theorem slice_get {v : Bytes} {lo hi m : Nat} (hv : (json.drop lo).take (hi - lo) = v) (hm : m < hi - lo) : v[m]? = json[lo + m]? := by
  rw [← hv, List.getElem?_take_of_lt hm, List.getElem?_drop]

/-! ### Trimming -/

/-- A text with paired quotes. -/
theorem unquote_ok {v : Bytes} {s e : Nat} (hse : s ≤ e) (he : e < v.length) (hq : v[s]? = some 34 → v[e]? = some 34 → s < e) :
    ∃ w, unquoteSlice v s e = .ok w := by
  unfold unquoteSlice
  obtain ⟨x, hx⟩ := getElem_ex (json := v) (i := s) (by omega)
  obtain ⟨y, hy⟩ := getElem_ex (json := v) (i := e) he
  have h1 : idx v (s : Int) = .ok x := by unfold idx at?; rw [if_neg (by omega)]; simp [hx]
  have h2 : idx v (e : Int) = .ok y := by unfold idx at?; rw [if_neg (by omega)]; simp [hy]
  have e1 : ((e : Int) + 1) = ((e + 1 : Nat) : Int) := by omega
  have e2 : ((s : Int) + 1) = ((s + 1 : Nat) : Int) := by omega
  have h3 : ∃ w, slice v (s : Int) ((e : Int) + 1) = .ok w := by
    rw [e1]; exact ⟨_, slice_range (json := v) (lo := s) (hi := e + 1) (by omega) (by omega)⟩
  obtain ⟨w, h3⟩ := h3
  rw [h1]
  simp only [Out.bind_ok]
  rw [h2, h3]
  by_cases h34 : x = 34
  · simp only [h34, beq_self_eq_true, if_true, Out.bind_ok]
    by_cases h34' : y = 34
    · subst h34; subst h34'
      have := hq hx hy
      rw [e2, slice_range (json := v) (lo := s + 1) (hi := e) (by omega) (by omega)]
      exact ⟨_, by simp; rfl⟩
    · exact ⟨w, by simp [h34']⟩
  · exact ⟨w, by simp [h34]⟩

/-- The quotes of a piece of the text. -/
def Quoted (v : Bytes) : Prop := ∀ k : Nat, v[k]? = some 34 → ∃ r : Nat, r ≠ k ∧ v[r]? = some 34

theorem Paired.piece {hi : Nat} (h : Paired json start hi false) (hv : hi ≤ json.length) : Quoted ((json.drop start).take (hi - start)) := by
  intro k hk
  have hk' := lt_of_getElem? hk
  simp only [List.length_take, List.length_drop] at hk'
  rw [slice_get rfl (by omega)] at hk
  obtain ⟨r, r1, r2, r3, r4⟩ := h (start + k) (by omega) (by omega) hk
  exact ⟨r - start, by omega, by rw [slice_get rfl (by omega), show start + (r - start) = r by omega]; exact r4⟩

theorem cleanValue_safe {v : Bytes} (h : Quoted v) : ∃ w, cleanValue v = .ok w := by
  unfold cleanValue
  by_cases h0 : v.length = 0
  · rw [if_pos (by simpa using h0)]; exact ⟨_, rfl⟩
  · rw [if_neg (by simpa using h0)]
    simp only
    have hf := firstNS_spec (json := v) (lo := 0) (hi := v.length - 1)
    generalize hs : (firstNS v 0 (v.length - 1)).getD (v.length - 1) = s
    have hsl : s < v.length ∧ ∀ m b, m < s → v[m]? = some b → space b = true := by
      rcases hf with ⟨j, c, h1, h2, h3, h4, h5, h6⟩ | ⟨h1, h2⟩
      · rw [h1] at hs; simp only [Option.getD_some] at hs; subst hs
        exact ⟨by omega, fun m b hm hb => h6 m b (by omega) hm hb⟩
      · rw [h1] at hs; simp only [Option.getD_none] at hs; subst hs
        exact ⟨by omega, fun m b hm hb => h2 m b (by omega) (by omega) (by omega) hb⟩
    rcases lastNS_spec (json := v) (lo := s + 1) (Nat.le_refl v.length) with ⟨j, c, h1, h2, h3, h4, h5, h6⟩ | ⟨h1, h2⟩
    · rw [h1]
      exact unquote_ok (by simp; omega) h3 (fun _ _ => by simp; omega)
    · rw [h1]
      refine unquote_ok (Nat.le_refl _) hsl.1 (fun hq _ => ?_)
      obtain ⟨r, r1, r2⟩ := h s hq
      exfalso
      rcases Nat.lt_or_ge r s with hlt | hge
      · exact absurd (hsl.2 r 34 hlt r2) (by decide)
      · exact absurd (h2 r 34 (by omega) (lt_of_getElem? r2) r2) (by decide)

theorem cvsUp_spec {v : Bytes} {i : Nat} (hi : i < v.length) : i ≤ cvsUp v i ∧ cvsUp v i < v.length ∧
    (∀ m b, i ≤ m → m < cvsUp v i → v[m]? = some b → space b = true) := by
  fun_induction cvsUp v i with
  | case1 i hn => have := List.getElem?_eq_none_iff.1 hn; omega
  | case2 i c hc hs ih =>
    simp only [Bool.and_eq_true, decide_eq_true_eq] at hs
    obtain ⟨h1, h2, h3⟩ := ih hs.2
    refine ⟨by omega, h2, fun m b hm hj hb => ?_⟩
    by_cases h : m = i
    · subst h; rw [hc] at hb; injection hb with hb; subst hb; exact hs.1
    · exact h3 m b (by omega) hj hb
  | case3 i c hc hs => exact ⟨Nat.le_refl _, hi, fun m b h1 h2 => by omega⟩

theorem cvsDown_spec {v : Bytes} : ∀ {n : Nat}, n < v.length → cvsDown v n ≤ n ∧
    ∀ m b, cvsDown v n < m → m ≤ n → v[m]? = some b → space b = true
  | 0, h => by simp only [cvsDown]; exact ⟨Nat.le_refl _, fun m b h1 h2 => by omega⟩
  | n + 1, h => by
    rw [cvsDown]
    obtain ⟨c, hc⟩ := getElem_ex h
    rw [hc]
    simp only
    split
    · rename_i hs
      simp only [Bool.and_eq_true, decide_eq_true_eq] at hs
      obtain ⟨h1, h2⟩ := cvsDown_spec (v := v) (n := n) (by omega)
      refine ⟨by omega, fun m b hm hj hb => ?_⟩
      by_cases h : m = n + 1
      · subst h; rw [hc] at hb; injection hb with hb; subst hb; exact hs.1
      · exact h2 m b hm (by omega) hb
    · exact ⟨Nat.le_refl _, fun m b h1 h2 => by omega⟩

/-- `cleanValueString` needs more than whitespace. -/
theorem cleanString_safe {v : Bytes} (h : Quoted v) {m : Nat} {b : UInt8} (hm : v[m]? = some b) (hb : space b = false) :
    ∃ w, cleanValueString v = .ok w := by
  have hl := lt_of_getElem? hm
  unfold cleanValueString
  rw [if_neg (by intro h0; rw [beq_iff_eq] at h0; omega)]
  obtain ⟨u1, u2, u3⟩ := cvsUp_spec (v := v) (i := 0) (by omega)
  obtain ⟨d1, d2⟩ := cvsDown_spec (v := v) (n := v.length - 1) (by omega)
  have up : ∀ {m b}, v[m]? = some b → space b = false → cvsUp v 0 ≤ m := fun {m b} hm hb => by
    rcases Nat.lt_or_ge m (cvsUp v 0) with hlt | hge
    · exact absurd (u3 m b (by omega) hlt hm) (by simp [hb])
    · exact hge
  have dn : ∀ {m b}, v[m]? = some b → space b = false → m ≤ cvsDown v (v.length - 1) := fun {m b} hm hb => by
    have := lt_of_getElem? hm
    rcases Nat.lt_or_ge (cvsDown v (v.length - 1)) m with hlt | hge
    · exact absurd (d2 m b hlt (by omega) hm) (by simp [hb])
    · exact hge
  have h1 := up hm hb
  have h2 := dn hm hb
  refine unquote_ok (by omega) (by omega) (fun hq hq' => ?_)
  obtain ⟨r, r1, r2⟩ := h _ hq
  have := up r2 (by decide)
  have := dn r2 (by decide)
  omega

end Jin
