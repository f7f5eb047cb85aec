import Verif.Proof.Utf8
import Verif.Model.Iter
/-!
# Props.Utf8 — C116: UTF-8 in, UTF-8 out

The text is arbitrary UTF-8; it need not be JSON.
-/

namespace Jin
open Spec

theorem firstNS_some_sp {json : Bytes} {i hi j : Nat} (h : firstNS json i hi = some j) : j = i ∨ ∃ c, json[j - 1]? = some c ∧ space c = true := by
  fun_induction firstNS json i hi with
  | case1 => cases h
  | case2 i hlt c hc hs ih =>
    rcases ih h with rfl | h
    · exact .inr ⟨c, by simpa using hc, hs⟩
    · exact .inr h
  | case3 => cases h; exact .inl rfl
  | case4 => cases h

theorem firstNS_none_sp {json : Bytes} {i hi : Nat} (hh : hi ≤ json.length) (h : firstNS json i hi = none) :
    ∀ k, i ≤ k → k < hi → ∃ c, json[k]? = some c ∧ space c = true := by
  fun_induction firstNS json i hi with
  | case1 i hlt hc => rw [List.getElem?_eq_none_iff] at hc; omega
  | case2 i hlt c hc hs ih =>
    intro k h1 h2
    by_cases hk : k = i
    · subst hk; exact ⟨c, hc, hs⟩
    · exact ih h k (by omega) h2
  | case3 => cases h
  | case4 => intro k h1 h2; omega

theorem lastNS_some_sp {json : Bytes} {lo : Nat} : ∀ {n j : Nat}, lastNS json lo n = some j → lo ≤ j ∧ (j + 1 = n ∨ ∃ c, json[j + 1]? = some c ∧ space c = true)
  | 0, j, h => by cases h
  | n + 1, j, h => by
    unfold lastNS at h
    split at h
    · cases h
    · split at h
      · cases h
      · rename_i c hc
        split at h
        · rename_i hs
          obtain ⟨h0, h1⟩ := lastNS_some_sp h
          refine ⟨h0, ?_⟩
          rcases h1 with h1 | h1
          · subst h1; exact .inr ⟨c, hc, hs⟩
          · exact .inr h1
        · cases h; exact ⟨by omega, .inl rfl⟩

theorem lastNS_none_sp {json : Bytes} {lo : Nat} : ∀ {n : Nat}, n ≤ json.length → lastNS json lo n = none →
    ∀ k, lo ≤ k → k < n → ∃ c, json[k]? = some c ∧ space c = true
  | 0, _, _, k, _, h2 => by omega
  | n + 1, hn, h, k, h1, h2 => by
    unfold lastNS at h
    split at h
    · omega
    · split at h
      · rename_i hc; rw [List.getElem?_eq_none_iff] at hc; omega
      · rename_i c hc
        split at h
        · rename_i hs
          by_cases hk : k = n
          · subst hk; exact ⟨c, hc, hs⟩
          · exact lastNS_none_sp (by omega) h k h1 (by omega)
        · cases h

theorem idx_ok {json : Bytes} {i : Int} {c : UInt8} (h : idx json i = .ok c) : 0 ≤ i ∧ json[i.toNat]? = some c := by
  unfold idx at? at h
  split at h
  · rename_i d hd
    cases h
    split at hd
    · cases hd
    · exact ⟨by omega, hd⟩
  · cases h

theorem bindOut_any {α : Type} {json out : Bytes} {er : Option Err} {x : Out α} {f : α → Mut} (h : Mut.bindOut json x f = .done out er) :
    out = json ∨ ∃ a, x = .ok a ∧ f a = .done out er := by
  cases x with
  | ok a => exact .inr ⟨a, rfl, h⟩
  | err e => simp only [Mut.bindOut] at h; injection h with h _; exact .inl h.symm
  | panic => cases h

theorem ofOut_any {x : Out Bytes} {out : Bytes} {er : Option Err} (h : Mut.ofOut x = .done out er) : out = [] ∨ x = .ok out := by
  cases x with
  | ok b => simp only [Mut.ofOut] at h; injection h with h _; subst h; exact .inr rfl
  | err e => simp only [Mut.ofOut] at h; injection h with h _; exact .inl h.symm
  | panic => cases h

theorem edit_utf8 {json new out : Bytes} {i j : Int} {er : Option Err} (hu : Utf8 json) (hn : Utf8 new) (h : Mut.ofOut (replace json new i j) = .done out er)
    (hi : Beside json i.toNat) (hj : Beside json j.toNat) : Utf8 out := by
  rcases ofOut_any h with rfl | h
  · exact .nil
  · exact hu.replace hn h hi hj

/-! ### Reading and writing one value -/

/-- **C116** What `Get` returns from a UTF-8 text is UTF-8. -/
theorem C116_get {json w : Bytes} {path : List Bytes} (hu : Utf8 json) (h : Get json path = .ok w) : Utf8 w := by
  unfold Get at h
  split at h
  · cases h; exact hu
  · rename_i hl
    have hp : path ≠ [] := by rintro rfl; exact hl rfl
    cases hc : core json false path with
    | panic => rw [hc] at h; cases h
    | err e => rw [hc] at h; cases h
    | ok l =>
      rw [hc] at h
      obtain ⟨h1, h2, -⟩ := core_beside hp hc
      exact hu.slice h (by simpa using h1) (by simpa using h2)

theorem replaceValue_utf8 {json v out : Bytes} {s e : Nat} {er : Option Err} (hu : Utf8 json) (hv : Utf8 v) (hs : Beside json s) (he : Beside json e)
    (h : replaceValue json v s e = .done out er) : Utf8 out := by
  unfold replaceValue at h
  rcases bindOut_any h with rfl | ⟨q, hq, h⟩
  · exact hu
  · unfold quotedAt at hq
    cases ha : idx json ((s : Int) - 1) with
    | panic => rw [ha] at hq; cases hq
    | err _ => rw [ha] at hq; cases hq
    | ok a =>
      rw [ha] at hq
      simp only [Out.bind_ok] at hq
      split at hq
      · rename_i h34
        cases hb : idx json e with
        | panic => rw [hb] at hq; cases hq
        | err _ => rw [hb] at hq; cases hq
        | ok b =>
          rw [hb] at hq
          cases hq
          split at h
          · rename_i hb34
            simp only [beq_iff_eq] at h34 hb34
            subst h34 hb34
            have h1 := (idx_ok ha).2
            have h2 := (idx_ok hb).2
            refine edit_utf8 hu hv h (.at h1 (by decide)) ?_
            have : ((e : Int) + 1).toNat = e + 1 := by omega
            rw [this]
            exact .after (by simpa using h2) (by decide)
          · exact edit_utf8 hu hv h (by simpa using hs) (by simpa using he)
      · cases hq
        simp only [Bool.false_eq_true, if_false] at h
        exact edit_utf8 hu hv h (by simpa using hs) (by simpa using he)

/-- **C116** `Set` with a UTF-8 value gives UTF-8, with or without an error. -/
theorem C116_set {json v out : Bytes} {path : List Bytes} {er : Option Err} (hu : Utf8 json) (hv : Utf8 v) (h : Set json v path = .done out er) : Utf8 out := by
  unfold Set at h
  split at h
  · cases h; exact hu
  · rename_i hl
    have hp : path ≠ [] := by rintro rfl; exact hl rfl
    rcases bindOut_any h with rfl | ⟨l, hc, h⟩
    · exact hu
    · obtain ⟨h1, h2, -⟩ := core_beside hp hc
      exact replaceValue_utf8 hu hv h1 h2 h

theorem widen_beside {json : Bytes} {s e : Nat} {r : Nat × Nat} (hs : Beside json s) (he : Beside json e) (h : widen json s e = .ok r) :
    Beside json r.1 ∧ Beside json r.2 := by
  unfold widen at h
  cases ha : idx json ((s : Int) - 1) with
  | panic => rw [ha] at h; cases h
  | err _ => rw [ha] at h; cases h
  | ok a =>
    cases hb : idx json e with
    | panic => rw [ha, hb] at h; cases h
    | err _ => rw [ha, hb] at h; cases h
    | ok b =>
      rw [ha, hb] at h
      cases h
      obtain ⟨h0, h1⟩ := idx_ok ha
      have h2 := (idx_ok hb).2
      simp only
      constructor
      · split
        · rename_i h34
          simp only [beq_iff_eq] at h34
          subst h34
          have : ((s : Int) - 1).toNat = s - 1 := by omega
          rw [this] at h1
          exact .at h1 (by decide)
        · exact hs
      · split
        · rename_i h34
          simp only [beq_iff_eq] at h34
          subst h34
          exact .after (by simpa using h2) (by decide)
        · exact he

/-- **C116** `Delete` -/
theorem C116_delete {json out : Bytes} {path : List Bytes} {er : Option Err} (hu : Utf8 json) (h : Delete json path = .done out er) : Utf8 out := by
  unfold Delete at h
  split at h
  · cases h; exact hu
  rename_i hl
  have hp : path ≠ [] := by rintro rfl; exact hl rfl
  rcases bindOut_any h with rfl | ⟨l, hc, h⟩
  · exact hu
  obtain ⟨h1, h2, h3⟩ := core_beside hp hc
  rcases bindOut_any h with rfl | ⟨r, hr, h⟩
  · exact hu
  have hs : Beside json (if (l.keyStart == -1) = true then l.start else (l.keyStart - 1).toNat) := by
    split
    · exact h1
    · rename_i hk
      rcases h3 with h3 | h3 | ⟨h3, h4⟩
      · exact absurd (by simpa using h3) hk
      · rw [h3]; exact .zero
      · refine .at (c := 34) ?_ (by decide)
        rw [← h4]; congr 1; omega
  obtain ⟨w1, w2⟩ := widen_beside hs h2 hr
  rcases bindOut_any h with rfl | ⟨a, ha, h⟩
  · exact hu
  rcases bindOut_any h with rfl | ⟨z, hz, h⟩
  · exact hu
  split at h
  · exact edit_utf8 hu .nil h (by simpa using w1) (by simpa using w2)
  split at h
  · rename_i h44
    rw [beq_iff_eq] at h44
    refine edit_utf8 hu .nil h (by simpa using w1) ?_
    have h5 := (idx_ok hz).2
    rw [h44] at h5
    exact Beside.after (c := 44) h5 (by decide)
  split at h
  · rename_i h44
    rw [beq_iff_eq] at h44
    have h5 := (idx_ok ha).2
    rw [h44] at h5
    exact edit_utf8 hu .nil h (.at (c := 44) h5 (by decide)) (by simpa using w2)
  · cases h; exact hu

/-- Before the closing bracket. -/
theorem insert_utf8 {json new out : Bytes} {o c : UInt8} {s e : Nat} {er : Option Err} (hu : Utf8 json) (hn : Utf8 new) (hc : c < 128)
    (hb : bracketsAt json o c s e = .ok true) (h : Mut.ofOut (replace json new ((e : Int) - 1) ((e : Int) - 1)) = .done out er) : Utf8 out := by
  obtain ⟨h0, h1⟩ := brackets_true hb
  have hi : ((e : Int) - 1).toNat = e - 1 := by omega
  exact edit_utf8 hu hn h (hi ▸ .at h1 hc) (hi ▸ .at h1 hc)

/-- **C116** `Add` -/
theorem C116_add {json v out : Bytes} {path : List Bytes} {er : Option Err} (hu : Utf8 json) (hv : Utf8 v) (h : Add json v path = .done out er) : Utf8 out := by
  unfold Add at h
  split at h
  · cases h; exact hu
  rcases bindOut_any h with rfl | ⟨⟨s, e⟩, -, h⟩
  · exact hu
  rcases bindOut_any h with rfl | ⟨b, hb, h⟩
  · exact hu
  cases b with
  | false => cases h; exact hu
  | true =>
    simp only [if_true] at h
    split at h
    · exact insert_utf8 hu hv (by decide) hb h
    · exact insert_utf8 hu (hv.cons (by decide)) (by decide) hb h

theorem member_utf8 {key v : Bytes} (hk : Utf8 key) (hv : Utf8 v) : Utf8 (34 :: key ++ [34, 58] ++ v) :=
  ((Utf8.cons (by decide) hk).append (.ascii (by decide))).append hv

theorem addKeyValue_utf8 {json key v out : Bytes} {path : List Bytes} {er : Option Err} (hu : Utf8 json) (hk : Utf8 key) (hv : Utf8 v)
    (h : addKeyValue json key v path = .done out er) : Utf8 out := by
  unfold addKeyValue at h
  split at h
  · cases h; exact hu
  rcases bindOut_any h with rfl | ⟨⟨s, e⟩, -, h⟩
  · exact hu
  rcases bindOut_any h with rfl | ⟨b, hb, h⟩
  · exact hu
  cases b with
  | false => cases h; exact hu
  | true =>
    simp only [if_true] at h
    split at h
    · exact insert_utf8 hu (member_utf8 hk hv) (by decide) hb h
    · split at h
      · cases h
      · cases h; exact hu
      · split at h
        · exact insert_utf8 hu (by simpa using Utf8.cons (c := 44) (by decide) (member_utf8 hk hv)) (by decide) hb h
        · cases h; exact hu

/-- **C116** `AddKeyValue` -/
theorem C116_addKeyValue {json key out : Bytes} {v : Option Bytes} {path : List Bytes} {er : Option Err} (hu : Utf8 json) (hk : Utf8 key) (hv : ∀ x, v = some x → Utf8 x)
    (h : AddKeyValue json key v path = .done out er) : Utf8 out := by
  cases v with
  | none => exact addKeyValue_utf8 hu hk (.ascii (by decide)) h
  | some v => exact addKeyValue_utf8 hu hk (hv v rfl) h

/-- **C116** `Insert` -/
theorem C116_insert {json v out : Bytes} {n : Int} {path : List Bytes} {er : Option Err} (hu : Utf8 json) (hv : Utf8 v) (h : Insert json n v path = .done out er) :
    Utf8 out := by
  unfold Insert at h
  rcases bindOut_any h with rfl | ⟨⟨s, e⟩, -, h⟩
  · exact hu
  rcases bindOut_any h with rfl | ⟨b, hb, h⟩
  · exact hu
  split at h
  · cases h; exact hu
  rcases bindOut_any h with rfl | ⟨l, hl, h⟩
  · exact hu
  obtain ⟨h1, h2, -⟩ := core_beside (by simp) hl
  have hsp := (core_shape (by simp) hl).1
  rcases bindOut_any h with rfl | ⟨⟨s', e'⟩, hw, h⟩
  · exact hu
  obtain ⟨w1, w2⟩ := widen_beside h1 h2 hw
  simp only at w1 w2
  rcases bindOut_any h with rfl | ⟨x, -, h⟩
  · exact hu
  rcases bindOut_any h with rfl | ⟨y, -, h⟩
  · exact hu
  split at h
  · exact edit_utf8 hu (hv.append (.ascii (by decide))) h (by simpa using w1) (by simpa using w1)
  split at h
  · exact edit_utf8 hu (hv.append (.ascii (by decide))) h (by simpa using w1) (by simpa using w1)
  split at h
  · have hb' : Beside json (((s' : Int) - 1).toNat) := by
      have hi : ((s' : Int) - 1).toNat = s' - 1 := by omega
      rw [hi]
      -- the byte before the value, or before its quote, is a separator
      have key : s' = l.start ∨ s' = l.start - 1 ∧ json[l.start - 1]? = some 34 := by
        unfold widen at hw
        cases ha : idx json ((l.start : Int) - 1) with
        | panic => rw [ha] at hw; cases hw
        | err _ => rw [ha] at hw; cases hw
        | ok a =>
          cases hb : idx json l.stop with
          | panic => rw [ha, hb] at hw; cases hw
          | err _ => rw [ha, hb] at hw; cases hw
          | ok b =>
            rw [ha, hb] at hw
            simp only [Out.bind_ok, Out.pure_eq, Out.ok.injEq, Prod.mk.injEq] at hw
            obtain ⟨hw, -⟩ := hw
            split at hw
            · rename_i h34
              simp only [beq_iff_eq] at h34
              subst h34
              have := idx_ok ha
              have e : ((l.start : Int) - 1).toNat = l.start - 1 := by omega
              rw [e] at this
              exact .inr ⟨hw.symm, this.2⟩
            · exact .inl hw.symm
      rcases hsp.sides with ⟨q1, q2, q3⟩ | ⟨q1, q2⟩
      · rcases key with k | ⟨k, -⟩
        · rw [k]; exact .at q1 (by decide)
        · rw [k]
          obtain ⟨-, c, c1, c2⟩ := q3
          exact .at c1 (sep_ascii c2)
      · obtain ⟨q0, c, c1, c2⟩ := q1
        rcases key with k | ⟨-, k⟩
        · rw [k]; exact .at c1 (sep_ascii c2)
        · rw [c1] at k; cases k; exact absurd c2 (by decide)
    exact edit_utf8 hu (.cons (by decide) hv) h hb' hb'
  · cases h; exact hu

/-- **C116** `SetKey` -/
theorem C116_setKey {json newKey out : Bytes} {path : List Bytes} {er : Option Err} (hu : Utf8 json) (hk : Utf8 newKey) (h : SetKey json newKey path = .done out er) :
    Utf8 out := by
  unfold SetKey at h
  split at h
  · cases h; exact hu
  split at h
  · cases h; exact hu
  rename_i hl
  have hp : path ≠ [] := by rintro rfl; exact hl rfl
  split at h
  · cases h
  · cases h; exact hu
  split at h
  · rcases bindOut_any h with rfl | ⟨l, hc, h⟩
    · exact hu
    obtain ⟨-, -, h3⟩ := core_beside hp hc
    split at h
    · cases h
    · rename_i hneg
      have hb : Beside json l.keyStart.toNat := by
        rcases h3 with h3 | h3 | ⟨h3, h4⟩
        · omega
        · rw [h3]; exact .zero
        · exact .inr (.inr (.inr ⟨34, h4, by decide⟩))
      have : After (fun _ => True) (fun r : Mut => ∀ er, r = .done out er → Utf8 out)
          (forUp l.start (setKeyBody json newKey l.keyStart.toNat) l.keyStart.toNat ()) := by
        refine forUp_inv (P := fun _ _ => True) ?_ (fun _ _ _ _ => trivial) trivial
        intro i s hi _
        unfold setKeyBody
        split
        · intro er h; cases h
        · rename_i c hc
          split
          · exact trivial
          · split
            · rename_i h34
              simp only [beq_iff_eq] at h34
              subst h34
              intro er h
              exact edit_utf8 hu hk h (by rw [Int.toNat_natCast]; exact hb) (by rw [Int.toNat_natCast]; exact Beside.at hc (by decide))
            · exact trivial
      cases hz : forUp l.start (setKeyBody json newKey l.keyStart.toNat) l.keyStart.toNat () with
      | ret r => rw [hz] at this h; exact this _ h
      | done u => rw [hz] at h; cases h; exact hu
  · cases h; exact hu

/-- **C116** `Store` -/
theorem C116_store {json key out : Bytes} {v : Option Bytes} {path : List Bytes} {er : Option Err} (hu : Utf8 json) (hk : Utf8 key) (hv : ∀ x, v = some x → Utf8 x)
    (h : Store json key v path = .done out er) : Utf8 out := by
  unfold Store at h
  split at h
  · cases h
  · split at h
    · exact C116_addKeyValue hu hk hv h
    · cases h; exact hu
  · rename_i l hl
    obtain ⟨h1, h2, -⟩ := core_beside (by simp) hl
    refine replaceValue_utf8 hu ?_ h1 h2 h
    cases v with
    | none => exact .nil
    | some v => exact hv v rfl

/-! ### Lists of values -/

theorem unquote_utf8 {s w : Bytes} {a b : Nat} (hu : Utf8 s) (ha : Beside s a) (hb : Beside s (b + 1)) (h : unquoteSlice s a b = .ok w) : Utf8 w := by
  have plain : slice s a ((b : Int) + 1) = .ok w → Utf8 w := by
    intro h
    refine hu.slice h (by simpa using ha) ?_
    rw [show ((b : Int) + 1).toNat = b + 1 by omega]
    exact hb
  unfold unquoteSlice at h
  cases h1 : idx s a with
  | panic => rw [h1] at h; cases h
  | err _ => rw [h1] at h; cases h
  | ok x =>
    rw [h1] at h
    simp only [Out.bind_ok] at h
    split at h
    · rename_i hx
      rw [beq_iff_eq] at hx
      cases h2 : idx s b with
      | panic => rw [h2] at h; cases h
      | err _ => rw [h2] at h; cases h
      | ok y =>
        rw [h2] at h
        simp only [Out.bind_ok] at h
        split at h
        · rename_i hy
          rw [beq_iff_eq] at hy
          have k1 := (idx_ok h1).2
          have k2 := (idx_ok h2).2
          rw [hx] at k1
          rw [hy] at k2
          refine hu.slice h ?_ ?_
          · rw [show ((a : Int) + 1).toNat = a + 1 by omega]
            exact .after (by simpa using k1) (by decide)
          · exact .at k2 (by decide)
        · exact plain h
    · exact plain h

theorem cvsUp_beside {s : Bytes} {i : Nat} (h : Beside s i) : Beside s (cvsUp s i) := by
  fun_induction cvsUp s i with
  | case1 => exact h
  | case2 i c hc hs ih =>
    simp only [Bool.and_eq_true] at hs
    exact ih (.after hc (space_ascii hs.1))
  | case3 => exact h

theorem cvsDown_beside {s : Bytes} : ∀ {n : Nat}, n < s.length → Beside s (n + 1) → Beside s (cvsDown s n + 1)
  | 0, _, h => h
  | n + 1, hn, h => by
    unfold cvsDown
    split
    · exact h
    · rename_i c hc
      split
      · rename_i hs
        simp only [Bool.and_eq_true] at hs
        exact cvsDown_beside (by omega) (.at hc (space_ascii hs.1))
      · exact h

theorem cleanValueString_utf8 {s w : Bytes} (hu : Utf8 s) (h : cleanValueString s = .ok w) : Utf8 w := by
  unfold cleanValueString at h
  split at h
  · cases h
  · rename_i hl
    have hl : s.length ≠ 0 := by simpa using hl
    exact unquote_utf8 hu (cvsUp_beside .zero) (cvsDown_beside (by omega) (.inr (.inl (by omega)))) h

theorem cleanValue_utf8 {s w : Bytes} (hu : Utf8 s) (h : cleanValue s = .ok w) : Utf8 w := by
  unfold cleanValue at h
  split at h
  · cases h; exact hu
  · rename_i hl
    have hl : s.length ≠ 0 := by simpa using hl
    simp only at h
    refine unquote_utf8 hu ?_ ?_ h
    · cases h1 : firstNS s 0 (s.length - 1) with
      | some j =>
        rcases firstNS_some_sp h1 with rfl | ⟨c, h2, h3⟩
        · exact .zero
        · exact .inr (.inr (.inr ⟨c, h2, space_ascii h3⟩))
      | none =>
        simp only [Option.getD_none]
        by_cases h0 : s.length = 1
        · rw [h0]; exact .zero
        · obtain ⟨c, h2, h3⟩ := firstNS_none_sp (by omega) h1 (s.length - 1 - 1) (by omega) (by omega)
          exact .inr (.inr (.inr ⟨c, h2, space_ascii h3⟩))
    · generalize (firstNS s 0 (s.length - 1)).getD (s.length - 1) = a
      cases h1 : lastNS s (a + 1) s.length with
      | some j =>
        rcases (lastNS_some_sp h1).2 with h2 | ⟨c, h2, h3⟩
        · exact .inr (.inl (by simp [h2]))
        · exact .at h2 (space_ascii h3)
      | none =>
        simp only [Option.getD_none]
        by_cases h0 : a + 1 < s.length
        · obtain ⟨c, h2, h3⟩ := lastNS_none_sp (Nat.le_refl _) h1 (a + 1) (Nat.le_refl _) h0
          exact .at h2 (space_ascii h3)
        · exact .inr (.inl (by omega))

theorem split_utf8 {val : Bytes} (hu : Utf8 val) (h0 : val.head? = some 91) {l : List Bytes}
    (h : splitArray cleanValueString cleanValueString val = .ok l) : ∀ w ∈ l, Utf8 w := by
  have key : After (fun s : SplitSt Bytes => ∀ w ∈ s.acc, Utf8 w) (fun r : Out (List Bytes) => ∀ l, r = .ok l → ∀ w ∈ l, Utf8 w)
      (forUp val.length (splitBody cleanValueString cleanValueString val) 0 ⟨1, false, 0, []⟩) := by
    refine forUp_inv (P := fun _ s => Beside val s.start ∧ ∀ w ∈ s.acc, Utf8 w) ?_ (fun _ _ _ h => h.2) ⟨.after (i := 0) (c := 91) ?_ (by decide), by simp⟩
    · intro i s hi ⟨h1, h2⟩
      obtain ⟨d, hd⟩ := getElem_some hi
      have piece : ∀ {t : Nat} {w}, Beside val t → d < 128 → (slice val t i >>= cleanValueString) = .ok w → Utf8 w := by
        intro t w ht hd' hw
        cases hs : slice val t i with
        | panic => rw [hs] at hw; cases hw
        | err _ => rw [hs] at hw; cases hw
        | ok x =>
          rw [hs] at hw
          exact cleanValueString_utf8 (hu.slice hs (by simpa using ht) (by simpa using Beside.at hd hd')) hw
      have h3 : ∀ s' : SplitSt Bytes, s'.start = s.start → s'.acc = s.acc → Beside val s'.start ∧ ∀ w ∈ s'.acc, Utf8 w := by
        intro s' e1 e2; rw [e1, e2]; exact ⟨h1, h2⟩
      unfold splitBody
      simp only [hd]
      split
      · exact ⟨h1, h2⟩
      split
      · exact ⟨h1, h2⟩
      split
      · exact ⟨h1, h2⟩
      generalize hs' : (if (d == 93 || d == 125) = true then
          { (if (d == 91 || d == 123) = true then { s with level := s.level + 1 } else s) with
            level := (if (d == 91 || d == 123) = true then { s with level := s.level + 1 } else s).level - 1 }
        else if (d == 91 || d == 123) = true then { s with level := s.level + 1 } else s) = s'
      have e1 : s'.start = s.start := by subst hs'; (repeat' split) <;> rfl
      have e2 : s'.acc = s.acc := by subst hs'; (repeat' split) <;> rfl
      obtain ⟨h1, h2⟩ := h3 s' e1 e2
      split
      · rename_i hx
        simp only [Bool.and_eq_true, beq_iff_eq] at hx
        split
        · rename_i w hw
          show ∀ w ∈ s'.acc ++ [_], Utf8 w
          intro x hx'
          rcases List.mem_append.1 hx' with hx' | hx'
          · exact h2 x hx'
          · rw [List.mem_singleton.1 hx']; exact piece h1 (by rw [hx.1]; decide) hw
        · intro l hl; cases hl
        · intro l hl; cases hl
      split
      · rename_i hx
        simp only [Bool.and_eq_true, beq_iff_eq] at hx
        split
        · rename_i w hw
          refine ⟨.after hd (by rw [hx.2]; decide), ?_⟩
          intro x hx'
          rcases List.mem_append.1 hx' with hx' | hx'
          · exact h2 x hx'
          · rw [List.mem_singleton.1 hx']; exact piece h1 (by rw [hx.2]; decide) hw
        · intro l hl; cases hl
        · intro l hl; cases hl
      · exact ⟨h1, h2⟩
    · rw [← h0, List.head?_eq_getElem?]
  unfold splitArray at h
  split at h
  · rename_i r hr; rw [hr] at key; exact key _ h
  · rename_i t ht; rw [ht] at key; cases h; exact key

/-- **C116** The elements `ParseArray` and `GetStringArray` return. -/
theorem C116_arrays {json : Bytes} (hu : Utf8 json) : (∀ l, ParseArray json = .ok (some l) → ∀ w ∈ l, Utf8 w) ∧
    ∀ path l, GetStringArray json path = .ok l → ∀ w ∈ l, Utf8 w := by
  have key : ∀ {val l}, Utf8 val → ParseArray val = .ok (some l) → ∀ w ∈ l, Utf8 w := by
    intro val l hu h
    unfold ParseArray at h
    split at h
    · cases h; simp
    · split at h
      · rename_i hb
        simp only [Bool.and_eq_true, beq_iff_eq] at hb
        split at h
        · cases h; simp
        · cases hs : splitArray cleanValueString cleanValueString val with
          | panic => rw [hs] at h; cases h
          | err _ => rw [hs] at h; cases h
          | ok l' => rw [hs] at h; cases h; exact split_utf8 hu hb.1 hs
      · cases h
  refine ⟨fun l => key hu, fun path l h => ?_⟩
  unfold GetStringArray GetString at h
  cases hg : Get json path with
  | panic => rw [hg] at h; cases h
  | err _ => rw [hg] at h; cases h
  | ok val =>
    rw [hg] at h
    simp only [Out.bind_ok] at h
    split at h
    · cases h
    · split at h
      · cases hp : ParseArray val with
        | panic => rw [hp] at h; cases h
        | err _ => rw [hp] at h; cases h
        | ok o =>
          rw [hp] at h
          cases o with
          | none => cases h
          | some l' => cases h; exact key (C116_get hu hg) hp
      · cases h

/-- What the loops over members keep. -/
def KvOk (json : Bytes) (s : KvSt) : Prop :=
  Beside json s.start ∧ (s.keyStart = 0 ∧ s.keyEnd = 0 ∧ s.inQuote = false ∨ json[s.keyStart]? = some 34) ∧ (s.keyEnd = 0 ∨ json[s.keyEnd]? = some 34) ∧
    (∀ k ∈ s.keys, Utf8 k) ∧ ∀ v ∈ s.values, Utf8 v

theorem kvQuote_ok {json : Bytes} {i : Nat} {s : KvSt} (hi : json[i]? = some 34) (h : KvOk json s) : KvOk json (kvQuote json i s) := by
  obtain ⟨h1, h2, h3, h4, h5⟩ := h
  unfold kvQuote
  split
  · rename_i hq
    have h2' : json[s.keyStart]? = some 34 := h2.resolve_left (by simp [hq])
    split
    · exact ⟨h1, .inr h2', .inr hi, h4, h5⟩
    · exact ⟨h1, h2, h3, h4, h5⟩
    · exact ⟨h1, .inr hi, h3, h4, h5⟩
  · exact ⟨h1, .inr hi, h3, h4, h5⟩

theorem key_utf8 {json w : Bytes} {s e : Nat} (hu : Utf8 json) {q : Bool} (h2 : s = 0 ∧ e = 0 ∧ q = false ∨ json[s]? = some 34)
    (h3 : e = 0 ∨ json[e]? = some 34) (h : slice json ((s : Int) + 1) e = .ok w) : Utf8 w := by
  obtain ⟨-, hle, -, -⟩ := slice_u8 h
  rcases h2 with ⟨rfl, rfl, -⟩ | h2
  · omega
  · rcases h3 with rfl | h3
    · omega
    · refine hu.slice h ?_ (by simpa using Beside.at h3 (by decide))
      rw [show ((s : Int) + 1).toNat = s + 1 by omega]
      exact .after h2 (by decide)

theorem val_utf8 {json w : Bytes} {s i : Nat} {d : UInt8} (hu : Utf8 json) (hd : json[i]? = some d) (hd' : d < 128) (hs : Beside json s)
    {f : Bytes → Out Bytes} (hf : ∀ {x w}, Utf8 x → f x = .ok w → Utf8 w) (h : (slice json s i >>= f) = .ok w) : Utf8 w := by
  cases h1 : slice json s i with
  | panic => rw [h1] at h; cases h
  | err _ => rw [h1] at h; cases h
  | ok x =>
    rw [h1] at h
    exact hf (hu.slice h1 (by simpa using hs) (by simpa using Beside.at hd hd')) h

theorem kvOk_key {json w : Bytes} {s : KvSt} (h : KvOk json s) (hw : Utf8 w) (st : Nat) (hs : Beside json st) :
    KvOk json { s with keys := s.keys ++ [w], start := st } := by
  obtain ⟨h1, h2, h3, h4, h5⟩ := h
  refine ⟨hs, h2, h3, ?_, h5⟩
  intro x hx
  rcases List.mem_append.1 hx with hx | hx
  · exact h4 x hx
  · rw [List.mem_singleton.1 hx]; exact hw

theorem kvOk_val {json w : Bytes} {s : KvSt} (h : KvOk json s) (hw : Utf8 w) (st : Nat) (hs : Beside json st) :
    KvOk json { s with values := s.values ++ [w], start := st } := by
  obtain ⟨h1, h2, h3, h4, h5⟩ := h
  refine ⟨hs, h2, h3, h4, ?_⟩
  intro x hx
  rcases List.mem_append.1 hx with hx | hx
  · exact h5 x hx
  · rw [List.mem_singleton.1 hx]; exact hw

theorem kvOk_level {json : Bytes} {s : KvSt} (h : KvOk json s) (n : Int) : KvOk json { s with level := n } := h

theorem keysBody_ok {json : Bytes} (hu : Utf8 json) (i : Nat) (s : KvSt) (hi : i < json.length) (h : KvOk json s) :
    Step i (fun _ => KvOk json) (KvOk json) (fun _ => True) (keysBody json i s) := by
  obtain ⟨d, hd⟩ := getElem_some hi
  unfold keysBody
  simp only [hd]
  (repeat' split) <;> first
    | exact trivial
    | exact h
    | exact kvOk_level h _
    | (rename_i h34; rw [beq_iff_eq] at h34; exact kvQuote_ok (h34 ▸ hd) h)
    | (rename_i w hw; exact kvOk_key h (key_utf8 hu h.2.1 h.2.2.1 hw) s.start h.1)

theorem valuesBody_ok {json : Bytes} (hu : Utf8 json) (i : Nat) (s : KvSt) (hi : i < json.length) (h : KvOk json s) :
    Step i (fun _ => KvOk json) (KvOk json) (fun _ => True) (valuesBody json i s) := by
  obtain ⟨d, hd⟩ := getElem_some hi
  have hasc : isJSONChar true true d = true → d < 128 := by
    simp only [isJSONChar, Bool.or_eq_true, beq_iff_eq, Bool.true_and]
    rintro ((((((rfl | rfl) | rfl) | rfl) | rfl) | rfl) | rfl) <;> decide
  unfold valuesBody
  simp only [hd]
  split
  · exact h
  rename_i hj
  have hd' : d < 128 := hasc (by simpa using hj)
  (repeat' split) <;> first
    | exact trivial
    | exact h
    | exact kvOk_level h _
    | (rename_i h34; rw [beq_iff_eq] at h34; exact kvQuote_ok (h34 ▸ hd) h)
    | (rename_i w hw; exact kvOk_val h (val_utf8 hu hd hd' h.1 cleanValueString_utf8 hw) _ (.after hd hd'))
    | (rename_i w hw; exact kvOk_val h (val_utf8 hu hd hd' h.1 cleanValueString_utf8 hw) s.start h.1)
    | exact ⟨.after hd hd', h.2⟩

theorem keysValuesBody_ok {json : Bytes} (hu : Utf8 json) (i : Nat) (s : KvSt) (hi : i < json.length) (h : KvOk json s) :
    Step i (fun _ => KvOk json) (KvOk json) (fun _ => True) (keysValuesBody json i s) := by
  obtain ⟨d, hd⟩ := getElem_some hi
  have hasc : isJSONChar true true d = true → d < 128 := by
    simp only [isJSONChar, Bool.or_eq_true, beq_iff_eq, Bool.true_and]
    rintro ((((((rfl | rfl) | rfl) | rfl) | rfl) | rfl) | rfl) <;> decide
  unfold keysValuesBody
  simp only [hd]
  split
  · exact h
  rename_i hj
  have hd' : d < 128 := hasc (by simpa using hj)
  (repeat' split) <;> first
    | exact trivial
    | exact h
    | exact kvOk_level h _
    | (rename_i h34; rw [beq_iff_eq] at h34; exact kvQuote_ok (h34 ▸ hd) h)
    | (rename_i w hw; exact kvOk_key h (key_utf8 hu h.2.1 h.2.2.1 hw) _ (.after hd hd'))
    | (rename_i w hw; exact kvOk_val h (val_utf8 hu hd hd' h.1 cleanValueString_utf8 hw) _ (.after hd hd'))
    | (rename_i w hw; exact kvOk_val h (val_utf8 hu hd hd' h.1 cleanValueString_utf8 hw) s.start h.1)

theorem kvRun_utf8 {json : Bytes} {path : List Bytes} {body : Bytes → Nat → KvSt → Ctl KvSt Unit} {t : KvSt}
    (hb : ∀ i s, i < json.length → KvOk json s → Step i (fun _ => KvOk json) (KvOk json) (fun _ => True) (body json i s))
    (h : kvRun body json path = .ok t) : KvOk json t := by
  unfold kvRun at h
  split at h
  · cases h
  cases hv : valueStart json path with
  | panic => rw [hv] at h; cases h
  | err _ => rw [hv] at h; cases h
  | ok st =>
    rw [hv] at h
    simp only [Out.bind_ok] at h
    cases hi : idx json st with
    | panic => rw [hi] at h; cases h
    | err _ => rw [hi] at h; cases h
    | ok c =>
      rw [hi] at h
      simp only [Out.bind_ok] at h
      split at h
      · rename_i hc
        rw [beq_iff_eq] at hc
        have h1 := (idx_ok hi).2
        rw [hc, Int.toNat_natCast] at h1
        have := forUp_inv (hi := json.length) (P := fun _ => KvOk json) (Q := KvOk json) (R := fun _ : Unit => True) hb (fun _ _ _ h => h)
          (i := st) (s := ⟨st, 0, 0, false, 0, [], []⟩) ⟨.at h1 (by decide), .inl ⟨rfl, rfl, rfl⟩, .inl rfl, by simp, by simp⟩
        split at h
        · cases h
        · rename_i u hu; rw [hu] at this; cases h; exact this
      · cases h

/-- **C116** The keys and values `GetKeys`, `GetValues` and `GetKeysValues` return. -/
theorem C116_members {json : Bytes} {path : List Bytes} (hu : Utf8 json) : (∀ l, GetKeys json path = .ok l → ∀ w ∈ l, Utf8 w) ∧
    (∀ l, GetValues json path = .ok l → ∀ w ∈ l, Utf8 w) ∧
    ∀ ks vs, GetKeysValues json path = .ok (ks, vs) → (∀ w ∈ ks, Utf8 w) ∧ ∀ w ∈ vs, Utf8 w := by
  refine ⟨fun l h => ?_, fun l h => ?_, fun ks vs h => ?_⟩
  · unfold GetKeys at h
    cases hk : kvRun keysBody json path with
    | panic => rw [hk] at h; cases h
    | err _ => rw [hk] at h; cases h
    | ok t => rw [hk] at h; cases h; exact (kvRun_utf8 (keysBody_ok hu) hk).2.2.2.1
  · unfold GetValues at h
    cases hk : kvRun valuesBody json path with
    | panic => rw [hk] at h; cases h
    | err _ => rw [hk] at h; cases h
    | ok t => rw [hk] at h; cases h; exact (kvRun_utf8 (valuesBody_ok hu) hk).2.2.2.2
  · unfold GetKeysValues at h
    cases hk : kvRun keysValuesBody json path with
    | panic => rw [hk] at h; cases h
    | err _ => rw [hk] at h; cases h
    | ok t => rw [hk] at h; cases h; exact (kvRun_utf8 (keysValuesBody_ok hu) hk).2.2.2

/-! ### Callbacks

Two callbacks that agree on UTF-8 cannot be told apart: the function hands out nothing else. -/

theorem forUp_same {σ ρ : Type} {hi : Nat} {f g : Nat → σ → Ctl σ ρ} {P : σ → Prop}
    (h : ∀ i s, i < hi → P s → f i s = g i s ∧ Step i (fun _ => P) (fun _ => True) (fun _ => True) (g i s)) :
    ∀ i s, P s → forUp hi f i s = forUp hi g i s := by
  intro i s hs
  fun_induction forUp hi f i s with
  | case1 i s hlt s' hb ih =>
    obtain ⟨e, st⟩ := h i s hlt hs
    rw [e] at hb
    rw [hb] at st
    rw [forUp.eq_def hi g, if_pos hlt, hb]
    exact ih st
  | case2 i s hlt j s' hb ih =>
    obtain ⟨e, st⟩ := h i s hlt hs
    rw [e] at hb
    rw [hb] at st
    rw [forUp.eq_def hi g, if_pos hlt, hb]
    exact ih st
  | case3 i s hlt s' hb =>
    rw [(h i s hlt hs).1] at hb
    rw [forUp.eq_def hi g, if_pos hlt, hb]
  | case4 i s hlt r hb =>
    rw [(h i s hlt hs).1] at hb
    rw [forUp.eq_def hi g, if_pos hlt, hb]
  | case5 i s hlt => rw [forUp.eq_def hi g, if_neg hlt]

/-- **C116** `IterateArray` hands out UTF-8 only. -/
theorem C116_iterateArray {σ : Type} {json : Bytes} (hu : Utf8 json) {cb cb' : σ → Bytes → Cb σ} (hcb : ∀ u v, Utf8 v → cb u v = cb' u v)
    (path : List Bytes) (u : σ) : IterateArray json cb path u = IterateArray json cb' path u := by
  have body : ∀ i (s : IaSt σ), i < json.length → Beside json s.start → iaBody json cb i s = iaBody json cb' i s ∧
      Step i (fun _ (s : IaSt σ) => Beside json s.start) (fun _ => True) (fun _ => True) (iaBody json cb' i s) := by
    intro i s hi hs
    obtain ⟨d, hd⟩ := getElem_some hi
    have hasc : isJSONChar true false d = true → d < 128 := by
      simp only [isJSONChar, Bool.or_eq_true, beq_iff_eq, Bool.true_and, Bool.false_and, Bool.false_eq_true, or_false]
      rintro (((((rfl | rfl) | rfl) | rfl) | rfl) | rfl) <;> decide
    unfold iaBody
    simp only [hd]
    by_cases hj : (!isJSONChar true false d) = true
    · rw [if_pos hj, if_pos hj]; exact ⟨rfl, hs⟩
    rw [if_neg hj, if_neg hj]
    have hd' : d < 128 := hasc (by simpa using hj)
    have hv : ∀ {v}, (slice json s.start i >>= cleanValue) = .ok v → cb s.user v = cb' s.user v :=
      fun h => hcb _ _ (val_utf8 hu hd hd' hs cleanValue_utf8 h)
    constructor
    · (repeat' split) <;> first | rfl | (rename_i v hv' _ _ _; simp_all) | simp_all
    · (repeat' split) <;> first | exact trivial | exact hs | exact .after hd hd'
  unfold IterateArray
  simp only
  split
  · rfl
  split
  · rfl
  split
  · rfl
  · rfl
  rename_i st _
  cases hc : json[st]? with
  | none => rfl
  | some c =>
    simp only
    split
    · rfl
    · rename_i h91
      have h91 : c = 91 := by simpa using h91
      rw [forUp_same body _ ⟨st + 1, false, 0, u⟩ (.after hc (by rw [h91]; decide))]

theorem ikValue_utf8 {json v : Bytes} {start stop : Nat} (hu : Utf8 json) (hs : Beside json start) (he : Beside json (stop + 1) ∨ stop = 0 ∧ 1 ≤ start)
    (h : ikValue json start stop = .ok v) : Utf8 v := by
  have last : slice json start (stop + 1) = .ok v → Utf8 v := by
    intro h
    rcases he with he | ⟨rfl, hle⟩
    · refine hu.slice h (by simpa using hs) ?_
      rw [show ((stop : Int) + 1).toNat = stop + 1 by omega]; exact he
    · obtain ⟨h1, h2, h3, h4⟩ := slice_u8 h
      rw [h4]
      rw [show ((((0 : Nat) : Int) + 1).toNat - (start : Int).toNat) = 0 by omega]
      exact Utf8.nil
  unfold ikValue at h
  cases ha : idx json start with
  | panic => rw [ha] at h; cases h
  | err _ => rw [ha] at h; cases h
  | ok a =>
    rw [ha] at h
    simp only [Out.bind_ok] at h
    split at h
    · rename_i h34
      rw [beq_iff_eq] at h34
      cases hb : idx json stop with
      | panic => rw [hb] at h; cases h
      | err _ => rw [hb] at h; cases h
      | ok b =>
        rw [hb] at h
        simp only [Out.bind_ok] at h
        split at h
        · rename_i h34'
          rw [beq_iff_eq] at h34'
          have h1 := (idx_ok ha).2
          have h2 := (idx_ok hb).2
          rw [Int.toNat_natCast] at h1 h2
          refine hu.slice h ?_ ?_
          · rw [show ((start : Int) + 1).toNat = start + 1 by omega]
            exact .after h1 (by rw [h34]; decide)
          · rw [Int.toNat_natCast]
            exact .at h2 (by rw [h34']; decide)
        · exact last h
    · exact last h

/-- What the loop of `IterateKeyValue` keeps. -/
def IkOk {σ : Type} (json : Bytes) (s : IkSt σ) : Prop :=
  Beside json s.start ∧ (s.stop = 0 ∨ Beside json (s.stop + 1)) ∧ (s.keyStart = 0 ∧ s.keyEnd = 0 ∧ s.inQuote = false ∨ json[s.keyStart]? = some 34) ∧
    (s.keyEnd = 0 ∨ json[s.keyEnd]? = some 34) ∧ Utf8 s.key

theorem ikQuote_ok {σ : Type} {json : Bytes} {i : Nat} {s : IkSt σ} (hi : json[i]? = some 34) (h : IkOk json s) : IkOk json (ikQuote json i s) := by
  obtain ⟨h1, h5, h2, h3, h4⟩ := h
  unfold ikQuote
  split
  · rename_i hq
    have h2' : json[s.keyStart]? = some 34 := h2.resolve_left (by simp [hq])
    split
    · exact ⟨h1, h5, .inr h2', .inr hi, h4⟩
    · exact ⟨h1, h5, h2, h3, h4⟩
    · exact ⟨h1, h5, .inr hi, h3, h4⟩
  · exact ⟨h1, h5, .inr hi, h3, h4⟩

theorem firstNS_beside {json : Bytes} {lo hi : Nat} (h : Beside json lo) : Beside json ((firstNS json lo hi).getD lo) := by
  cases hf : firstNS json lo hi with
  | none => exact h
  | some j =>
    have hle : lo ≤ j := (firstNS_le hf).1
    rcases firstNS_some_sp hf with rfl | ⟨c, h1, h2⟩
    · exact h
    · show Beside json j
      by_cases h0 : j = 0
      · rw [h0]; exact .zero
      · have := Beside.after h1 (space_ascii h2)
        rwa [show j - 1 + 1 = j by omega] at this

/-- **C116** `IterateKeyValue` hands out UTF-8 only, keys and values. -/
theorem C116_iterateKeyValue {σ : Type} {json : Bytes} (hu : Utf8 json) {cb cb' : σ → Bytes → Bytes → Cb σ}
    (hcb : ∀ u k v, Utf8 k → Utf8 v → cb u k v = cb' u k v) (path : List Bytes) (u : σ) : IterateKeyValue json cb path u = IterateKeyValue json cb' path u := by
  have body : ∀ i (s : IkSt σ), i < json.length → IkOk json s → ikBody json cb i s = ikBody json cb' i s ∧
      Step i (fun _ => IkOk json) (fun _ => True) (fun _ => True) (ikBody json cb' i s) := by
    intro i s hi hs
    obtain ⟨d, hd⟩ := getElem_some hi
    have hasc : isJSONChar true true d = true → d < 128 := by
      simp only [isJSONChar, Bool.or_eq_true, beq_iff_eq, Bool.true_and]
      rintro ((((((rfl | rfl) | rfl) | rfl) | rfl) | rfl) | rfl) <;> decide
    unfold ikBody
    simp only [hd]
    by_cases hj : (!isJSONChar true true d) = true
    · rw [if_pos hj, if_pos hj]; exact ⟨rfl, hs⟩
    rw [if_neg hj, if_neg hj]
    have hd' : d < 128 := hasc (by simpa using hj)
    obtain ⟨h1, h5, h2, h3, h4⟩ := hs
    have hst : Beside json ((firstNS json s.start i).getD s.start) := firstNS_beside h1
    have hlast : Beside json ((lastNS json ((firstNS json s.start i).getD s.start + 1) i).getD (i - 1) + 1) ∨
        (lastNS json ((firstNS json s.start i).getD s.start + 1) i).getD (i - 1) = 0 ∧ 1 ≤ (firstNS json s.start i).getD s.start := by
      cases hl : lastNS json ((firstNS json s.start i).getD s.start + 1) i with
      | none =>
        show Beside json (i - 1 + 1) ∨ i - 1 = 0 ∧ _
        by_cases h0 : i = 0
        · by_cases hz : (firstNS json s.start i).getD s.start = 0
          · left
            rw [h0] at hd ⊢
            exact .after hd hd'
          · exact .inr ⟨by omega, by omega⟩
        · left
          rw [show i - 1 + 1 = i by omega]
          exact .at hd hd'
      | some j =>
        left
        rcases (lastNS_some_sp hl).2 with h | ⟨c, hc, hsp⟩
        · show Beside json (j + 1)
          rw [h]; exact .at hd hd'
        · exact .at hc (space_ascii hsp)
    have hend : Beside json ((lastNS json ((firstNS json s.start i).getD s.start) i).getD s.stop + 1) ∨
        (lastNS json ((firstNS json s.start i).getD s.start) i).getD s.stop = 0 ∧ 1 ≤ (firstNS json s.start i).getD s.start := by
      cases hl : lastNS json ((firstNS json s.start i).getD s.start) i with
      | none =>
        show Beside json (s.stop + 1) ∨ s.stop = 0 ∧ _
        rcases h5 with h5 | h5
        · by_cases hz : (firstNS json s.start i).getD s.start = 0
          · left
            rw [h5]
            by_cases h0 : i = 0
            · rw [h0] at hd; exact .after hd hd'
            · obtain ⟨c, hc, hsp⟩ := lastNS_none_sp (Nat.le_of_lt hi) hl 0 (by omega) (by omega)
              exact .after hc (space_ascii hsp)
          · exact .inr ⟨h5, by omega⟩
        · exact .inl h5
      | some j =>
        left
        rcases (lastNS_some_sp hl).2 with h | ⟨c, hc, hsp⟩
        · show Beside json (j + 1)
          rw [h]; exact .at hd hd'
        · exact .at hc (space_ascii hsp)
    have hv1 : ∀ {v}, ikValue json ((firstNS json s.start i).getD s.start) ((lastNS json ((firstNS json s.start i).getD s.start) i).getD s.stop) = .ok v →
        cb s.user s.key v = cb' s.user s.key v := fun h => hcb _ _ _ h4 (ikValue_utf8 hu hst hend h)
    have hv2 : ∀ {v}, ikValue json ((firstNS json s.start i).getD s.start) ((lastNS json ((firstNS json s.start i).getD s.start + 1) i).getD (i - 1)) = .ok v →
        cb s.user s.key v = cb' s.user s.key v := fun h => hcb _ _ _ h4 (ikValue_utf8 hu hst hlast h)
    have hlast' : (lastNS json ((firstNS json s.start i).getD s.start + 1) i).getD (i - 1) = 0 ∨
        Beside json ((lastNS json ((firstNS json s.start i).getD s.start + 1) i).getD (i - 1) + 1) := by
      rcases hlast with h | h
      · exact .inr h
      · exact .inl h.1
    constructor
    · cases hk1 : ikValue json ((firstNS json s.start i).getD s.start) ((lastNS json ((firstNS json s.start i).getD s.start) i).getD s.stop) with
      | ok v =>
        cases hk2 : ikValue json ((firstNS json s.start i).getD s.start) ((lastNS json ((firstNS json s.start i).getD s.start + 1) i).getD (i - 1)) with
        | ok v' => simp only [hv1 hk1, hv2 hk2]
        | err _ => simp only [hv1 hk1]
        | panic => simp only [hv1 hk1]
      | err _ =>
        cases hk2 : ikValue json ((firstNS json s.start i).getD s.start) ((lastNS json ((firstNS json s.start i).getD s.start + 1) i).getD (i - 1)) with
        | ok v' => simp only [hv2 hk2]
        | err _ => rfl
        | panic => rfl
      | panic =>
        cases hk2 : ikValue json ((firstNS json s.start i).getD s.start) ((lastNS json ((firstNS json s.start i).getD s.start + 1) i).getD (i - 1)) with
        | ok v' => simp only [hv2 hk2]
        | err _ => rfl
        | panic => rfl
    · (repeat' split) <;> first
        | exact trivial
        | exact ⟨h1, h5, h2, h3, h4⟩
        | (rename_i h34; rw [beq_iff_eq] at h34; exact ikQuote_ok (h34 ▸ hd) ⟨h1, h5, h2, h3, h4⟩)
        | exact ⟨hst, hlast', h2, h3, h4⟩
        | (rename_i w hw; exact ⟨.after hd hd', h5, h2, h3, key_utf8 hu h2 h3 hw⟩)
  unfold IterateKeyValue
  split
  · rfl
  split
  · rfl
  · rfl
  rename_i st _
  cases hc : json[st]? with
  | none => rfl
  | some c =>
    simp only
    split
    · rename_i h123
      rw [beq_iff_eq] at h123
      rw [forUp_same body _ ⟨st, 0, 0, 0, false, 0, [], u⟩ ⟨.at hc (by rw [h123]; decide), .inl rfl, .inl ⟨rfl, rfl, rfl⟩, .inl rfl, Utf8.nil⟩]
    · rfl

theorem natDigits_ascii {b : Nat} (hb : 2 ≤ b) (hb' : b ≤ 36) (n : Nat) : ∀ c ∈ natDigits b n, c < 128 := by
  have dig : ∀ d : Fin 36, digitChar d.1 < 128 := by decide
  fun_induction natDigits b n with
  | case1 n h =>
    intro c hc
    rw [List.mem_singleton.1 hc]
    exact dig ⟨n, by omega⟩
  | case2 n h ih =>
    intro c hc
    rcases List.mem_append.1 hc with hc | hc
    · exact ih c hc
    · rw [List.mem_singleton.1 hc]
      exact dig ⟨n % b, Nat.lt_of_lt_of_le (Nat.mod_lt _ (by omega)) hb'⟩

theorem itoa_ascii (n : Int) : ∀ c ∈ itoa n, c < 128 := by
  intro c hc
  unfold itoa at hc
  split at hc
  · rcases List.mem_cons.1 hc with rfl | hc
    · decide
    · exact natDigits_ascii (by decide) (by decide) _ c hc
  · exact natDigits_ascii (by decide) (by decide) _ c hc

theorem itoa_utf8 (n : Int) : Utf8 (itoa n) := .ascii (itoa_ascii n)

/-- **C116** `Walk` hands out UTF-8 only: key, value and every name of the path. -/
theorem C116_walk {σ : Type} {json : Bytes} (hu : Utf8 json) {isFloat : Bytes → Bool} {cb cb' : σ → Bytes → Bytes → List Bytes → Cb σ}
    (hcb : ∀ u k v path, Utf8 k → Utf8 v → (∀ p ∈ path, Utf8 p) → cb u k v path = cb' u k v path) (u : σ) :
    Walk isFloat json cb u = Walk isFloat json cb' u := by
  have go : ∀ (fuel : Nat) (path : List Bytes) (u : σ), (∀ p ∈ path, Utf8 p) → walk isFloat json cb fuel path u = walk isFloat json cb' fuel path u := by
    intro fuel
    induction fuel with
    | zero => intro path u _; rfl
    | succ fuel ih =>
      intro path u hp
      have snoc : ∀ {k}, Utf8 k → ∀ p ∈ path ++ [k], Utf8 p := by
        intro k hk p hm
        rcases List.mem_append.1 hm with hm | hm
        · exact hp p hm
        · rw [List.mem_singleton.1 hm]; exact hk
      unfold walk
      split
      · rfl
      · rfl
      · exact C116_iterateKeyValue hu (fun u k v hk _ => by rw [ih _ _ (snoc hk)]) path u
      · rw [C116_iterateArray hu (fun (u : σ × Nat) v _ => by rw [ih _ _ (snoc (itoa_utf8 u.2))]) path (u, 0)]
      · cases hg : Get json path with
        | panic => rfl
        | err _ => rfl
        | ok val =>
          simp only
          rw [hcb _ _ _ _ ?_ (C116_get hu hg) hp]
          cases hl : path.getLast? with
          | none => exact Utf8.nil
          | some k => exact hp k (List.mem_of_getLast? hl)
  exact go _ [] u (by simp)

/-! Cases: `{"é":["日本", 1],"b":2}` is UTF-8, and the functions work on it. -/

/-- A text with letters of two and three bytes. -/
def utfText : Bytes := str "{\"é\":[\"日本\", 1],\"b\":\"ö\"}"

example : Utf8 utfText := ⟨"{\"é\":[\"日本\", 1],\"b\":\"ö\"}".toList, by decide +kernel⟩

example : Get utfText [str "é", str "0"] = .ok (str "日本") ∧ Set utfText (str "\"ü\"") [str "é", str "0"] = .done (str "{\"é\":[\"ü\", 1],\"b\":\"ö\"}") none ∧
    Delete utfText [str "é", str "0"] = .done (str "{\"é\":[ 1],\"b\":\"ö\"}") none ∧ Add utfText (str "\"ü\"") [str "é"] = .done (str "{\"é\":[\"日本\", 1,\"ü\"],\"b\":\"ö\"}") none ∧
    AddKeyValue utfText (str "ü") (some (str "3")) [] = .done (str "{\"é\":[\"日本\", 1],\"b\":\"ö\",\"ü\":3}") none ∧
    Insert utfText 0 (str "\"ü\"") [str "é"] = .done (str "{\"é\":[\"ü\",\"日本\", 1],\"b\":\"ö\"}") none ∧
    SetKey utfText (str "ü") [str "é"] = .done (str "{\"ü\":[\"日本\", 1],\"b\":\"ö\"}") none ∧
    Store utfText (str "b") (some (str "\"ü\"")) [] = .done (str "{\"é\":[\"日本\", 1],\"b\":\"ü\"}") none ∧
    GetStringArray utfText [str "é"] = .ok [str "日本", str "1"] ∧ GetKeysValues utfText [] = .ok ([str "é", str "b"], [str "[\"日本\", 1]", str "ö"]) ∧
    IterateKeyValue utfText (fun (l : List Bytes) k v => .ret (l ++ [k, v]) true none) [] [] = .done [str "é", str "[\"日本\", 1]", str "b", str "ö"] none ∧
    IterateArray utfText (fun (l : List Bytes) v => .ret (l ++ [v]) true none) [str "é"] [] = .done [str "日本", str "1"] none ∧
    Walk (fun _ => false) utfText (fun (l : List Bytes) k v path => .ret (l ++ k :: v :: path) true none) [] =
      .done [str "0", str "日本", str "é", str "0", str "1", str "1", str "é", str "1", str "b", str "ö", str "b"] none := by decide +kernel

end Jin
