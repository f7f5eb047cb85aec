import Verif.Proof.Shape
/-!
# Proof.Lock — two paths that differ in the last entry walk in step up to it
-/

namespace Jin
open Spec

/-- The result is no keyNotFound error. -/
def NotKey {α : Type} (r : Out α) : Prop := ∀ e, r = .err e → ∃ c, e.code = some c ∧ c ≠ 8

theorem notKey_panic {α : Type} : NotKey (.panic : Out α) := fun _ h => by cases h
theorem notKey_ok {α : Type} (a : α) : NotKey (.ok a : Out α) := fun _ h => by cases h
theorem notKey_ioor {α : Type} : NotKey (.err .indexOutOfRange : Out α) := fun _ h => by cases h; exact ⟨_, rfl, by decide⟩
theorem notKey_iexp {α : Type} : NotKey (.err .indexExpected : Out α) := fun _ h => by cases h; exact ⟨_, rfl, by decide⟩
theorem notKey_empty {α : Type} : NotKey (.err .emptyArray : Out α) := fun _ h => by cases h; exact ⟨_, rfl, by decide⟩
theorem notKey_bad {α : Type} (n : Int) : NotKey (.err (.badJSON n) : Out α) := fun _ h => by cases h; exact ⟨_, rfl, by decide⟩

/-- Two loops whose bodies agree until they break. -/
theorem forUp_lock {σ ρ : Type} {hi : Nat} {b1 b2 : Nat → σ → Ctl σ ρ} {S W Dead : σ → Prop} {Rel : σ → σ → Prop}
    (brk : ∀ i s t, i < hi → S s → b1 i s = .brk t → W t → ∃ t', b2 i s = .brk t' ∧ Rel t t')
    (next : ∀ i s t, i < hi → S s → b1 i s = .next t → Dead t ∨ (b2 i s = .next t ∧ S t))
    (goto : ∀ i s j t, i < hi → S s → b1 i s = .goto j t → Dead t ∨ (b2 i s = .goto j t ∧ S t))
    (dead : ∀ i s t, Dead s → forUp hi b1 i s = .done t → ¬ W t)
    (refl : ∀ s, S s → Rel s s) {i : Nat} {s t : σ} (hs : S s) (h : forUp hi b1 i s = .done t) (hw : W t) :
    ∃ t', forUp hi b2 i s = .done t' ∧ Rel t t' := by
  induction hn : hi - i using Nat.strongRecOn generalizing i s with
  | ind n ih =>
    rw [forUp] at h ⊢
    by_cases hlt : i < hi
    · rw [if_pos hlt] at h ⊢
      cases hb : b1 i s with
      | next u =>
        rw [hb] at h
        rcases next i s u hlt hs hb with hd | ⟨h2, hs'⟩
        · exact absurd hw (dead _ _ _ hd h)
        · rw [h2]
          exact ih _ (by omega) hs' h rfl
      | goto j u =>
        rw [hb] at h
        rcases goto i s j u hlt hs hb with hd | ⟨h2, hs'⟩
        · exact absurd hw (dead _ _ _ hd h)
        · rw [h2]
          exact ih _ (by omega) hs' h rfl
      | brk u =>
        rw [hb] at h
        cases h
        obtain ⟨t', h2, hr⟩ := brk i s t hlt hs hb hw
        rw [h2]
        exact ⟨t', rfl, hr⟩
      | ret r => rw [hb] at h; cases h
    · rw [if_neg hlt] at h ⊢
      cases h
      exact ⟨_, rfl, refl _ hs⟩

section
variable {json : Bytes} {P Q : List Bytes}

/-- Same length, same entries but for the last one. -/
structure Twin (P Q : List Bytes) : Prop where
  len : P.length = Q.length
  same : ∀ k, k + 1 < P.length → P[k]? = Q[k]?

theorem twin_of (pre : List Bytes) (a b : Bytes) : Twin (pre ++ [a]) (pre ++ [b]) where
  len := by simp
  same := fun k hk => by
    simp only [List.length_append, List.length_singleton] at hk
    rw [List.getElem?_append_left (by omega), List.getElem?_append_left (by omega)]

theorem Twin.next (h : Twin P Q) {k : Nat} (hk : k + 2 ≠ P.length) : P[k + 1]? = Q[k + 1]? := by
  rcases Nat.lt_or_ge (k + 2) P.length with h1 | h1
  · exact h.same _ h1
  · rw [List.getElem?_eq_none (by omega), List.getElem?_eq_none (by have := h.len; omega)]

theorem zero_lock (h : Twin P Q) {k i : Nat} {s t : ZeroSt} (hz : forUp json.length (zeroBody json P k) i s = .done t) :
    ∃ t', forUp json.length (zeroBody json Q k) i s = .done t' ∧ (t' = { t with cur := t'.cur } ∧ (k + 2 ≠ P.length → t' = t)) := by
  by_cases hk : k + 2 = P.length
  · refine forUp_lock (S := fun _ => True) (W := fun _ => True) (Dead := fun _ => False)
      (Rel := fun t t' => t' = { t with cur := t'.cur } ∧ (k + 2 ≠ P.length → t' = t)) ?_ ?_ ?_ (fun _ _ _ h => h.elim) (fun _ _ => ⟨rfl, fun _ => rfl⟩) trivial hz trivial
    · intro i s t hi _ hb _
      obtain ⟨q, hq⟩ : ∃ q, Q[k + 1]? = some q := ⟨_, List.getElem?_eq_getElem (by have := h.len; omega)⟩
      unfold zeroBody at hb ⊢
      rw [← h.len, hq]
      have : (k + 1 != P.length) = true := by simp; omega
      simp only [this, if_true] at hb ⊢
      split at hb
      · cases hb
      · rename_i c hc
        split at hb
        · rename_i hsp
          rw [if_pos hsp]
          split at hb
          · rename_i hop
            rw [if_pos hop]
            split at hb
            · cases hb
            · cases hb
              exact ⟨_, rfl, rfl, fun hn => absurd hk hn⟩
          · cases hb
        · cases hb
    · intro i s t hi _ hb
      right
      refine ⟨?_, trivial⟩
      unfold zeroBody at hb ⊢
      split at hb
      · cases hb
      · rename_i c hc
        split at hb
        · split at hb
          · split at hb
            · split at hb <;> cases hb
            · cases hb
          · split at hb <;> cases hb
        · rename_i hsp
          rw [if_neg hsp]
          exact hb
    · intro i s j t hi _ hb
      unfold zeroBody at hb
      (repeat' split at hb) <;> cases hb
  · have : zeroBody json Q k = zeroBody json P k := by
      funext i s
      unfold zeroBody
      rw [h.next hk, h.len]
    rw [this]
    exact ⟨t, hz, rfl, fun _ => rfl⟩

theorem peek_lock (h : Twin P Q) (k : Nat) : peekBody json P k = peekBody json Q k := by
  funext i s
  unfold peekBody
  rw [h.len]

/-- The array search uses the path for the entry behind a bracket only. -/
theorem arr_body {k : Nat} {n : Int} {i : Nat} {s : ArrSt} (h : Twin P Q) (hk : k + 1 < P.length) :
    arrBody json Q k n i s = arrBody json P k n i s ∨
    ∃ c p q, arrBody json P k n i s = .brk { s with offset := i, brace := c, cur := p } ∧
      arrBody json Q k n i s = .brk { s with offset := i, brace := c, cur := q } := by
  obtain ⟨q, hq⟩ : ∃ q, Q[k + 1]? = some q := ⟨_, List.getElem?_eq_getElem (by have := h.len; omega)⟩
  obtain ⟨p, hp⟩ : ∃ q, P[k + 1]? = some q := ⟨_, List.getElem?_eq_getElem (by omega)⟩
  unfold arrBody
  rw [← h.len, hq, ← peek_lock h, hp]
  cases hc : json[i]? with
  | none => exact .inl rfl
  | some c =>
    simp only
    cases hf : s.found with
    | false => left; simp only [Bool.false_eq_true, if_false]
    | true =>
      simp only [Bool.not_true, Bool.false_and, Bool.false_eq_true, if_false, if_true]
      split
      · exact .inl rfl
      split
      · exact .inl rfl
      split
      · exact .inl rfl
      split
      · exact .inr ⟨c, p, q, rfl, rfl⟩
      · exact .inl rfl

theorem arr_noGoto {k : Nat} {n : Int} {i j : Nat} {s t : ArrSt} : arrBody json P k n i s ≠ .goto j t := by
  intro hb
  unfold arrBody at hb
  simp only at hb
  (repeat' split at hb) <;> cases hb

theorem arr_lock (h : Twin P Q) {k i : Nat} {n : Int} {s t : ArrSt} (hz : forUp json.length (arrBody json P k n) i s = .done t) :
    ∃ t', forUp json.length (arrBody json Q k n) i s = .done t' ∧ (t' = { t with cur := t'.cur } ∧ (k + 2 ≠ P.length → t' = t)) := by
  by_cases hk : k + 2 = P.length
  · refine forUp_lock (S := fun _ => True) (W := fun _ => True) (Dead := fun _ => False)
      (Rel := fun t t' => t' = { t with cur := t'.cur } ∧ (k + 2 ≠ P.length → t' = t)) ?_ ?_ ?_ (fun _ _ _ h => h.elim) (fun _ _ => ⟨rfl, fun _ => rfl⟩) trivial hz trivial
    · intro i s t hi _ hb _
      rcases arr_body (json := json) (n := n) (i := i) (s := s) h (by omega : k + 1 < P.length) with e | ⟨c, p, q, e1, e2⟩
      · rw [e, hb]; exact ⟨t, rfl, rfl, fun _ => rfl⟩
      · rw [e1] at hb
        cases hb
        exact ⟨_, e2, rfl, fun hn => absurd hk hn⟩
    · intro i s t hi _ hb
      rcases arr_body (json := json) (n := n) (i := i) (s := s) h (by omega : k + 1 < P.length) with e | ⟨c, p, q, e1, e2⟩
      · exact .inr ⟨e.trans hb, trivial⟩
      · rw [e1] at hb; cases hb
    · intro i s j t hi _ hb
      exact absurd hb arr_noGoto
  · have : arrBody json Q k n = arrBody json P k n := by
      funext i s
      unfold arrBody
      rw [h.next hk, h.len, peek_lock h]
    rw [this]
    exact ⟨t, hz, rfl, fun _ => rfl⟩

/-- The key search never goes back in the path. -/
theorem key_mono {i : Nat} {s t : KeySt} (h : forUp json.length (keyBody json P) i s = .done t) : s.k ≤ t.k := by
  have : After (fun t : KeySt => s.k ≤ t.k) (fun _ => True) (forUp json.length (keyBody json P) i s) := by
    refine forUp_inv (P := fun _ t => s.k ≤ t.k) ?_ (fun _ _ _ h => h) (Nat.le_refl _)
    intro i u hi hu
    obtain ⟨c, hc⟩ := getElem_some hi
    unfold keyBody
    simp only [hc]
    (repeat' split) <;> first | exact hu | exact trivial | exact Nat.le_succ_of_le hu
  rw [h] at this
  exact this

theorem key_lt {i : Nat} {s t : KeySt} (hs : s.k < P.length) (h : forUp json.length (keyBody json P) i s = .done t) : t.k < P.length := by
  have : After (fun t : KeySt => t.k < P.length) (fun _ => True) (forUp json.length (keyBody json P) i s) := by
    refine forUp_inv (P := fun _ t => t.k < P.length) ?_ (fun _ _ _ h => h) hs
    intro i u hi hu
    obtain ⟨c, hc⟩ := getElem_some hi
    unfold keyBody
    simp only [hc]
    (repeat' split) <;> first
      | exact hu
      | exact trivial
      | (rename_i hp; exact (List.getElem?_eq_some_iff.1 hp).1)
  rw [h] at this
  exact this

/-- A key found at the end of the path has a position. -/
theorem key_pos {i : Nat} {s t : KeySt} (hs : s.found = false) (h : forUp json.length (keyBody json P) i s = .done t)
    (hf : t.found = true) (hk : t.k + 1 = P.length) : 0 ≤ t.keyStart := by
  have : After (fun t : KeySt => t.found = true → t.k + 1 = P.length → 0 ≤ t.keyStart) (fun _ => True) (forUp json.length (keyBody json P) i s) := by
    refine forUp_inv (P := fun _ t => t.found = true → t.k + 1 ≠ P.length) ?_ (fun _ _ _ h hf hk => absurd hk (h hf)) (by simp [hs])
    intro i u hi hu
    obtain ⟨c, hc⟩ := getElem_some hi
    unfold keyBody
    simp only [hc]
    (repeat' split) <;> first
      | exact hu
      | exact trivial
      | exact fun _ _ => Int.natCast_nonneg _
      | exact fun h1 h2 => absurd h2 (hu h1)
      | (rename_i hne; exact fun _ => by simpa using hne)
      | exact fun h => by cases h
      | simp_all [Step]
  rw [h] at this
  exact this hf hk

theorem key_square {i : Nat} {s : KeySt} {p : Bytes} (hc : json[i]? = some 91) (hq : s.inQuote = false) (hf : s.found = true)
    (hp : P[s.k + 1]? = some p) : keyBody json P i s = .brk { s with offset := i, brace := 91, cur := p } := by
  unfold keyBody
  rw [hc, hp]
  have h1 : (s.level == s.k + 1 && (91 : UInt8) == 58) = false := by rw [show ((91 : UInt8) == 58) = false by decide, Bool.and_false]
  simp only [h1, hq, hf]
  rfl

theorem key_curly {i : Nat} {s : KeySt} {p : Bytes} (hc : json[i]? = some 123) (hq : s.inQuote = false) (hf : s.found = true)
    (hp : P[s.k + 1]? = some p) :
    keyBody json P i s = .next { s with k := s.k + 1, cur := p, found := false, level := s.level + 1 } := by
  unfold keyBody
  rw [hc, hp]
  have h1 : (s.level == s.k + 1 && (123 : UInt8) == 58) = false := by rw [show ((123 : UInt8) == 58) = false by decide, Bool.and_false]
  simp only [h1, hq, hf]
  rfl

/-- The key search uses the path for the entry behind a bracket only. -/
theorem key_body {i : Nat} {s : KeySt} (h : Twin P Q) (hk : s.k + 1 < P.length) :
    keyBody json Q i s = keyBody json P i s ∨
    (∃ p q, keyBody json P i s = .brk { s with offset := i, brace := 91, cur := p } ∧
      keyBody json Q i s = .brk { s with offset := i, brace := 91, cur := q } ∧ P[s.k + 1]? = some p ∧ Q[s.k + 1]? = some q) ∨
    ∃ p q, keyBody json P i s = .next { s with k := s.k + 1, cur := p, found := false, level := s.level + 1 } ∧
      keyBody json Q i s = .next { s with k := s.k + 1, cur := q, found := false, level := s.level + 1 } ∧
      P[s.k + 1]? = some p ∧ Q[s.k + 1]? = some q := by
  obtain ⟨q, hq⟩ : ∃ q, Q[s.k + 1]? = some q := ⟨_, List.getElem?_eq_getElem (by have := h.len; omega)⟩
  obtain ⟨p, hp⟩ : ∃ q, P[s.k + 1]? = some q := ⟨_, List.getElem?_eq_getElem (by omega)⟩
  have hne : (s.k + 1 == P.length) = false := by simp; omega
  cases hc : json[i]? with
  | none => left; unfold keyBody; rw [hc]
  | some c =>
    by_cases h0 : s.found = true ∧ s.inQuote = false ∧ (c = 91 ∨ c = 123)
    · obtain ⟨h1, h2, rfl | rfl⟩ := h0
      · exact .inr (.inl ⟨p, q, key_square hc h2 h1 hp, key_square hc h2 h1 hq, hp, hq⟩)
      · exact .inr (.inr ⟨p, q, key_curly hc h2 h1 hp, key_curly hc h2 h1 hq, hp, hq⟩)
    · left
      unfold keyBody
      rw [← h.len, hq, hp, hne, hc]
      simp only
      cases hf : s.found with
      | false => simp only [Bool.false_eq_true, if_false]
      | true =>
        cases hi : s.inQuote with
        | true => simp only [if_true]
        | false =>
          have h91 : (c == 91) = false := by simp only [beq_eq_false_iff_ne]; rintro rfl; exact h0 ⟨hf, hi, .inl rfl⟩
          have h123 : (c == 123) = false := by simp only [beq_eq_false_iff_ne]; rintro rfl; exact h0 ⟨hf, hi, .inr rfl⟩
          simp only [h91, h123, Bool.false_eq_true, if_false]

theorem key_lock (h : Twin P Q) {i : Nat} {s t : KeySt} (hs : s.k + 1 < P.length) (hz : forUp json.length (keyBody json P) i s = .done t)
    (ht : t.k + 1 < P.length) :
    ∃ t', forUp json.length (keyBody json Q) i s = .done t' ∧ (t' = { t with cur := t'.cur } ∧ (t.k + 2 ≠ P.length → t' = t)) := by
  refine forUp_lock (S := fun u => u.k + 1 < P.length) (W := fun t => t.k + 1 < P.length) (Dead := fun u => P.length ≤ u.k + 1)
    (Rel := fun t t' => t' = { t with cur := t'.cur } ∧ (t.k + 2 ≠ P.length → t' = t)) ?_ ?_ ?_ ?_ (fun _ _ => ⟨rfl, fun _ => rfl⟩) hs hz ht
  · intro i s t hi hs hb hw
    rcases key_body (json := json) (i := i) h hs with e | ⟨p, q, e1, e2, e3, e4⟩ | ⟨p, q, e1, e2, e3, e4⟩
    · rw [e, hb]; exact ⟨t, rfl, rfl, fun _ => rfl⟩
    · rw [e1] at hb
      cases hb
      refine ⟨_, e2, rfl, fun hn => ?_⟩
      have := h.next (k := s.k) hn
      rw [e3, e4] at this
      cases this
      rfl
    · rw [e1] at hb; cases hb
  · intro i s t hi hs hb
    rcases key_body (json := json) (i := i) h hs with e | ⟨p, q, e1, e2, e3, e4⟩ | ⟨p, q, e1, e2, e3, e4⟩
    · by_cases hd : P.length ≤ t.k + 1
      · exact .inl hd
      · exact .inr ⟨e.trans hb, by omega⟩
    · rw [e1] at hb; cases hb
    · rw [e1] at hb
      cases hb
      simp only
      by_cases hn : s.k + 2 = P.length
      · left; omega
      · right
        have := h.next (k := s.k) hn
        rw [e3, e4] at this
        cases this
        exact ⟨e2, by omega⟩
  · intro i s j t hi hs hb
    rcases key_body (json := json) (i := i) h hs with e | ⟨p, q, e1, e2, e3, e4⟩ | ⟨p, q, e1, e2, e3, e4⟩
    · by_cases hd : P.length ≤ t.k + 1
      · exact .inl hd
      · exact .inr ⟨e.trans hb, by omega⟩
    · rw [e1] at hb; cases hb
    · rw [e1] at hb; cases hb
  · intro i s t hd hb hw
    have := key_mono hb
    omega

/-- An array step reports no missing key. -/
theorem step_notKey {s : CoreSt} (hb : s.brace = 91) : After (fun t : CoreSt => t.k = s.k) NotKey (coreStep json P s) := by
  have hz : ∀ {k i : Nat} {z : ZeroSt}, After (fun _ => True) NotKey (forUp json.length (zeroBody json P k) i z) := by
    intro k i z
    refine forUp_inv (P := fun _ _ => True) ?_ (fun _ _ _ _ => trivial) trivial
    intro i u hi hu
    unfold zeroBody
    (repeat' split) <;> first | exact trivial | exact notKey_panic | exact notKey_ioor
  have hp : ∀ {k i : Nat}, After (fun _ => True) NotKey (forUp json.length (peekBody json P k) i ()) := by
    intro k i
    refine forUp_inv (P := fun _ _ => True) ?_ (fun _ _ _ _ => trivial) trivial
    intro i u hi hu
    unfold peekBody
    (repeat' split) <;> first | exact trivial | exact notKey_panic | exact notKey_ioor
  have ha : ∀ {k : Nat} {n : Int} {i : Nat} {z : ArrSt}, After (fun _ => True) NotKey (forUp json.length (arrBody json P k n) i z) := by
    intro k n i z
    refine forUp_inv (P := fun _ _ => True) ?_ (fun _ _ _ _ => trivial) trivial
    intro i u hi hu
    unfold arrBody
    simp only
    (repeat' split) <;> first
      | exact trivial
      | exact notKey_panic
      | exact notKey_ioor
      | (rename_i r hr; have := hp (k := k) (i := i + 1); rw [hr] at this; exact this)
  unfold coreStep
  rw [if_pos (by simpa using hb)]
  split
  · exact notKey_iexp
  · split
    · have := hz (k := s.k) (i := s.offset + 1) (z := ⟨s.offset + 1, s.brace, s.cur⟩)
      split
      · rename_i r hr; rw [hr] at this; exact this
      · rfl
    · rename_i n _ _
      have := ha (k := s.k) (n := n) (i := s.offset) (z := ⟨0, false, false, 0, s.offset, s.brace, s.cur⟩)
      split
      · rename_i r hr; rw [hr] at this; exact this
      · split
        · exact notKey_ioor
        · rfl

/-- The extent of a value reports no missing key. -/
theorem tail_notKey {s : CoreSt} : NotKey (coreTail json false s) := by
  unfold coreTail
  split
  · exact notKey_bad _
  split
  · exact notKey_panic
  · simp only [Bool.false_eq_true, if_false]
    split
    · exact notKey_panic
    · intro e he
      rename_i off _ _ c _
      have : NotKey (extent json s.keyStart off c) := by
        have h1 : After (fun _ => True) NotKey (forUp json.length (braceBody json s.keyStart off) off (0, false)) := by
          refine forUp_inv (P := fun _ _ => True) ?_ (fun _ _ _ _ => trivial) trivial
          intro i u hi hu
          unfold braceBody
          (repeat' split) <;> first | exact trivial | exact notKey_panic | exact notKey_ok _
        have h2 : After (fun _ => True) NotKey (forUp json.length (stringBody json s.keyStart off) (off + 1) ()) := by
          refine forUp_inv (P := fun _ _ => True) ?_ (fun _ _ _ _ => trivial) trivial
          intro i u hi hu
          unfold stringBody
          (repeat' split) <;> first | exact trivial | exact notKey_panic | exact notKey_ok _
        have h3 : After (fun _ => True) NotKey (forUp json.length (plainBody json s.keyStart off) off ()) := by
          refine forUp_inv (P := fun _ _ => True) ?_ (fun _ _ _ _ => trivial) trivial
          intro i u hi hu
          unfold plainBody
          (repeat' split) <;> first | exact trivial | exact notKey_panic | exact notKey_ok _ | exact notKey_empty
        unfold extent
        simp only
        split
        · rename_i heq
          split at heq
          · split at heq
            · rename_i r hr; cases heq; rw [hr] at h1; exact h1
            · cases heq
          · split at heq
            · rw [heq] at h2; exact h2
            · rw [heq] at h3; exact h3
        · exact notKey_bad _
      exact this e he

/-- The extent of a value keeps the key position. -/
theorem extent_ks {ks : Int} {off : Nat} {c : UInt8} {l : Loc} (h : extent json ks off c = .ok l) : l.keyStart = ks := by
  have h1 : After (fun _ => True) (fun r : Out Loc => ∀ l, r = .ok l → l.keyStart = ks) (forUp json.length (braceBody json ks off) off (0, false)) := by
    refine forUp_inv (P := fun _ _ => True) ?_ (fun _ _ _ _ => trivial) trivial
    intro i u hi hu
    unfold braceBody
    (repeat' split) <;> first | exact trivial | (intro l hl; cases hl; rfl) | (intro l hl; cases hl; done)
  have h2 : After (fun _ => True) (fun r : Out Loc => ∀ l, r = .ok l → l.keyStart = ks) (forUp json.length (stringBody json ks off) (off + 1) ()) := by
    refine forUp_inv (P := fun _ _ => True) ?_ (fun _ _ _ _ => trivial) trivial
    intro i u hi hu
    unfold stringBody
    (repeat' split) <;> first | exact trivial | (intro l hl; cases hl; rfl) | (intro l hl; cases hl; done)
  have h3 : After (fun _ => True) (fun r : Out Loc => ∀ l, r = .ok l → l.keyStart = ks) (forUp json.length (plainBody json ks off) off ()) := by
    refine forUp_inv (P := fun _ _ => True) ?_ (fun _ _ _ _ => trivial) trivial
    intro i u hi hu
    unfold plainBody
    (repeat' split) <;> first | exact trivial | (intro l hl; cases hl; rfl) | (intro l hl; cases hl; done)
  unfold extent at h
  simp only at h
  split at h
  · rename_i heq
    split at heq
    · split at heq
      · rename_i r hr; cases heq; rw [hr] at h1; exact h1 l h
      · cases heq
    · split at heq
      · rw [heq] at h2; exact h2 l h
      · rw [heq] at h3; exact h3 l h
  · cases h

theorem coreLoop_end {s : CoreSt} (h : P.length ≤ s.k) (fuel : Nat) : coreLoop json P fuel s = .done s := by
  cases fuel with
  | zero => rfl
  | succ n => rw [coreLoop, if_neg (by omega)]

/-- If the walk along `P` ends without a key position then the last step is in an array, and the walk
along `Q` reports no missing key. -/
theorem coreLoop_lock (h : Twin P Q) : ∀ (fuel : Nat) {s s' t : CoreSt}, P.length ≤ s.k + fuel → s.k < P.length →
    s' = { s with cur := s'.cur } → (s.k + 1 < P.length → s' = s) →
    coreLoop json P fuel s = .done t → t.keyStart = -1 → After (fun _ => True) NotKey (coreLoop json Q fuel s')
  | 0, _, _, _, h1, h2, _, _, _, _ => by omega
  | fuel + 1, s, s', t, h1, h2, h3, h4, hd, hks => by
    rw [coreLoop, if_pos h2] at hd
    have hk' : s'.k = s.k := by rw [h3]
    have hb' : s'.brace = s.brace := by rw [h3]
    by_cases hlast : s.k + 1 = P.length
    · by_cases hb : s.brace = 91
      · rw [coreLoop, if_pos (by rw [← h.len]; omega)]
        have := step_notKey (json := json) (P := Q) (hb'.trans hb)
        cases hq : coreStep json Q s' with
        | ret r => rw [hq] at this; exact this
        | done u =>
          rw [hq] at this
          simp only
          rw [coreLoop_end (by simp only; rw [← h.len, show u.k = s'.k from this]; omega)]
          trivial
      · exfalso
        unfold coreStep at hd
        rw [if_neg (by simpa using hb)] at hd
        split at hd
        · cases hd
        · rename_i u hu
          split at hu
          · cases hu
          · rename_i v hv
            split at hu
            · cases hu
            · rename_i hf
              cases hu
              have hm := key_mono hv
              have hl := key_lt (P := P) h2 hv
              simp only at hm
              rw [coreLoop_end (by simp only; omega)] at hd
              cases hd
              have := key_pos (P := P) rfl hv (by simpa using hf) (by omega)
              simp only at hks
              omega
    · have hs' : s' = s := h4 (by omega)
      subst hs'
      rw [coreLoop, if_pos (by rw [← h.len]; omega)]
      have hlen := h.len
      by_cases hb : s'.brace = 91
      · unfold coreStep at hd ⊢
        rw [if_pos (by simpa using hb)] at hd ⊢
        cases hn : atoi s'.cur with
        | none => rw [hn] at hd; cases hd
        | some n =>
          rw [hn] at hd
          simp only at hd ⊢
          by_cases h0 : (n == 0) = true
          · rw [if_pos h0] at hd ⊢
            cases hz : forUp json.length (zeroBody json P s'.k) (s'.offset + 1) ⟨s'.offset + 1, s'.brace, s'.cur⟩ with
            | ret r => rw [hz] at hd; cases hd
            | done z =>
              obtain ⟨z', hz', r1, r2⟩ := zero_lock h hz
              rw [hz] at hd
              rw [hz']
              refine coreLoop_lock h fuel (by simp only; omega) (by simp only; omega) ?_ ?_ hd hks
              · rw [r1]
              · intro hk
                rw [r2 (by simp only at hk; omega)]
          · rw [if_neg h0] at hd ⊢
            cases hz : forUp json.length (arrBody json P s'.k n) s'.offset ⟨0, false, false, 0, s'.offset, s'.brace, s'.cur⟩ with
            | ret r => rw [hz] at hd; cases hd
            | done z =>
              obtain ⟨z', hz', r1, r2⟩ := arr_lock h hz
              rw [hz] at hd
              rw [hz']
              simp only at hd ⊢
              rw [show z'.found = z.found by rw [r1]]
              cases hf : z.found with
              | false => rw [hf] at hd; cases hd
              | true =>
                rw [hf] at hd
                refine coreLoop_lock h fuel (by simp only; omega) (by simp only; omega) ?_ ?_ hd hks
                · rw [r1]
                · intro hk
                  rw [r2 (by simp only at hk; omega)]
      · unfold coreStep at hd ⊢
        rw [if_neg (by simpa using hb)] at hd ⊢
        cases hz : forUp json.length (keyBody json P) s'.offset ⟨s'.k, s'.k, false, false, 0, 0, s'.offset, s'.brace, s'.cur, s'.keyStart⟩ with
        | ret r => rw [hz] at hd; cases hd
        | done v =>
          rw [hz] at hd
          have hm := key_mono hz
          have hl := key_lt (P := P) h2 hz
          simp only at hm
          by_cases hv : v.k + 1 = P.length
          · simp only at hd
            cases hf : v.found with
            | false => rw [hf] at hd; cases hd
            | true =>
              rw [hf] at hd
              simp only [Bool.not_true, Bool.false_eq_true, if_false] at hd
              rw [coreLoop_end (by simp only; omega)] at hd
              cases hd
              have := key_pos (P := P) rfl hz hf hv
              simp only at hks
              omega
          · obtain ⟨v', hz', r1, r2⟩ := key_lock h (by simp only; omega) hz (by omega)
            rw [hz']
            simp only at hd ⊢
            rw [show v'.found = v.found by rw [r1]]
            cases hf : v.found with
            | false => rw [hf] at hd; cases hd
            | true =>
              rw [hf] at hd
              refine coreLoop_lock h fuel (by simp only; omega) (by simp only; omega) ?_ ?_ hd hks
              · rw [r1]
              · intro hk
                rw [r2 (by simp only at hk; omega)]

/-- If `core` finds a value along `P` that has no key then it reports no missing key along `Q`. -/
theorem core_lock (h : Twin P Q) {l : Loc} (hl : core json false P = .ok l) (hks : l.keyStart = -1) : NotKey (core json false Q) := by
  cases P with
  | nil => unfold core at hl; split at hl <;> cases hl
  | cons p ps =>
    cases Q with
    | nil => have := h.len; simp at this
    | cons q qs =>
      unfold core at hl ⊢
      split at hl
      · cases hl
      rename_i hlen
      rw [if_neg hlen]
      simp only at hl ⊢
      cases hs : skipSpaces json 0 with
      | none => exact notKey_panic
      | some off =>
        rw [hs] at hl
        simp only at hl ⊢
        cases hc : json[off]? with
        | none => exact notKey_panic
        | some c =>
          rw [hc] at hl
          simp only at hl ⊢
          cases hz : coreLoop json (p :: ps) (p :: ps).length ⟨0, off, c, p, -1⟩ with
          | ret r =>
            rw [hz] at hl
            have : r = .ok l := hl
            have h3 := coreLoop_shape (json := json) (path := p :: ps) (p :: ps).length (s := ⟨0, off, c, p, -1⟩) (by simp) (by simp)
              ⟨fun hb => .inl (by simp only at hb ⊢; rw [hc, hb]), rfl, fun _ => .inl rfl⟩
            rw [hz] at h3
            exact absurd this (h3 l)
          | done t =>
            rw [hz] at hl
            have hkt : t.keyStart = -1 := by
              simp only at hl
              unfold coreTail at hl
              split at hl
              · cases hl
              · split at hl
                · cases hl
                · simp only [Bool.false_eq_true, if_false] at hl
                  split at hl
                  · cases hl
                  · rename_i j hj _ d hd
                    rw [← hks]
                    exact (extent_ks hl).symm
            have := coreLoop_lock (json := json) h (p :: ps).length (s := ⟨0, off, c, p, -1⟩) (s' := ⟨0, off, c, q, -1⟩) (by simp) (by simp) rfl
              (fun hk => by have := h.same 0 hk; simp only [List.getElem?_cons_zero, Option.some.injEq] at this; rw [this]) hz hkt
            rw [h.len] at this
            cases hz' : coreLoop json (q :: qs) (q :: qs).length ⟨0, off, c, q, -1⟩ with
            | ret r => rw [hz'] at this; exact this
            | done t' => exact tail_notKey

end

end Jin
