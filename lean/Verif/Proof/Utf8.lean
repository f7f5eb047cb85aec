import Verif.Spec.Utf8
import Verif.Props.Bytes
/-!
# Proof.Utf8 — cutting UTF-8 texts beside ASCII bytes
-/

namespace Jin
open Spec

theorem utf8_encode (c : Char) : (∃ b : UInt8, b < 128 ∧ String.utf8EncodeChar c = [b]) ∨ ∀ b ∈ String.utf8EncodeChar c, 128 ≤ b := by
  unfold String.utf8EncodeChar
  have hb : ∀ n : Nat, n < 256 → (UInt8.ofNat n).toNat = n := fun n h => by simp [Nat.mod_eq_of_lt h]
  simp only
  split
  · refine .inl ⟨_, ?_, rfl⟩
    rw [UInt8.lt_iff_toNat_lt, hb _ (by omega)]
    show _ < 128
    omega
  · right
    split
    · simp only [List.mem_cons, List.not_mem_nil, or_false]
      rintro b (rfl | rfl) <;> rw [UInt8.le_iff_toNat_le, hb _ (by omega)] <;> show 128 ≤ _ <;> omega
    · split
      · simp only [List.mem_cons, List.not_mem_nil, or_false]
        rintro b (rfl | rfl | rfl) <;> rw [UInt8.le_iff_toNat_le, hb _ (by omega)] <;> show 128 ≤ _ <;> omega
      · simp only [List.mem_cons, List.not_mem_nil, or_false]
        rintro b (rfl | rfl | rfl | rfl) <;> rw [UInt8.le_iff_toNat_le, hb _ (by omega)] <;> show 128 ≤ _ <;> omega

theorem Spec.Utf8.nil : Utf8 [] := ⟨[], rfl⟩

theorem Spec.Utf8.append {a b : Text} (ha : Utf8 a) (hb : Utf8 b) : Utf8 (a ++ b) := by
  obtain ⟨x, rfl⟩ := ha
  obtain ⟨y, rfl⟩ := hb
  exact ⟨x ++ y, by simp⟩

theorem Spec.Utf8.one {c : UInt8} (h : c < 128) : Utf8 [c] := by
  have hn : c.toNat < 128 := by rw [UInt8.lt_iff_toNat_lt] at h; exact h
  refine ⟨[Char.ofNat c.toNat], ?_⟩
  have hv : (Char.ofNat c.toNat).val.toNat = c.toNat := by
    unfold Char.ofNat
    rw [dif_pos (by left; omega)]
    rfl
  simp only [List.flatMap_cons, List.flatMap_nil, List.append_nil]
  unfold String.utf8EncodeChar
  simp only [hv]
  rw [if_pos (by omega)]
  simp

theorem Spec.Utf8.cons {c : UInt8} {t : Text} (h : c < 128) (ht : Utf8 t) : Utf8 (c :: t) := Utf8.append (Utf8.one h) ht

theorem Spec.Utf8.ascii {t : Text} (h : ∀ c ∈ t, c < 128) : Utf8 t := by
  induction t with
  | nil => exact .nil
  | cons c t ih => exact .cons (h c (by simp)) (ih fun d hd => h d (by simp [hd]))

/-- A UTF-8 text falls into UTF-8 texts at an ASCII byte. -/
theorem Spec.Utf8.split {a b : Text} {c : UInt8} (hc : c < 128) (h : Utf8 (a ++ c :: b)) : Utf8 a ∧ Utf8 b := by
  obtain ⟨cs, h⟩ := h
  induction cs generalizing a with
  | nil => simp at h
  | cons x cs ih =>
    rw [List.flatMap_cons] at h
    rcases List.append_eq_append_iff.1 h with ⟨r, h1, h2⟩ | ⟨r, h1, h2⟩
    · cases r with
      | nil =>
        rw [List.nil_append] at h2
        obtain ⟨-, i2⟩ := ih (a := []) (by rw [List.nil_append]; exact h2)
        rw [List.append_nil] at h1
        exact ⟨⟨[x], by simp [h1]⟩, i2⟩
      | cons y r =>
        rw [List.cons_append] at h2
        injection h2 with h3 h4
        subst h3
        rcases utf8_encode x with ⟨d, -, hd⟩ | hx
        · rw [hd] at h1
          cases a with
          | nil =>
            simp only [List.nil_append, List.cons.injEq] at h1
            rw [← h1.2] at h4
            exact ⟨.nil, ⟨cs, by simpa using h4⟩⟩
          | cons z a => simp at h1
        · have := hx c (by rw [h1]; simp)
          rw [UInt8.le_iff_toNat_le] at this
          rw [UInt8.lt_iff_toNat_lt] at hc
          exact absurd hc (by omega)
    · obtain ⟨i1, i2⟩ := ih h2.symm
      exact ⟨h1 ▸ Utf8.append ⟨[x], by simp⟩ i1, i2⟩

theorem Spec.Utf8.tail {c : UInt8} {t : Text} (hc : c < 128) (h : Utf8 (c :: t)) : Utf8 t := (Utf8.split (a := []) hc h).2

/-- A place at the start, at the end, before or after an ASCII byte. -/
def Beside (json : Text) (i : Nat) : Prop :=
  i = 0 ∨ json.length ≤ i ∨ (∃ c, json[i]? = some c ∧ c < 128) ∨ ∃ c, json[i - 1]? = some c ∧ c < 128

theorem Beside.at {json : Text} {i : Nat} {c : UInt8} (h : json[i]? = some c) (hc : c < 128) : Beside json i := .inr (.inr (.inl ⟨c, h, hc⟩))
theorem Beside.after {json : Text} {i : Nat} {c : UInt8} (h : json[i]? = some c) (hc : c < 128) : Beside json (i + 1) :=
  .inr (.inr (.inr ⟨c, h, hc⟩))
theorem Beside.zero {json : Text} : Beside json 0 := .inl rfl

theorem cut_at {json : Text} {i : Nat} {c : UInt8} (h : json[i]? = some c) : json = json.take i ++ c :: json.drop (i + 1) := by
  obtain ⟨hi, h⟩ := List.getElem?_eq_some_iff.1 h
  conv => lhs; rw [← List.take_append_drop i json, List.drop_eq_getElem_cons hi, h]

/-- A UTF-8 text can be cut beside an ASCII byte. -/
theorem Spec.Utf8.cut {json : Text} {i : Nat} (h : Utf8 json) (hi : Beside json i) : Utf8 (json.take i) ∧ Utf8 (json.drop i) := by
  rcases hi with rfl | hi | ⟨c, h1, h2⟩ | ⟨c, h1, h2⟩
  · simpa using ⟨Utf8.nil, h⟩
  · rw [List.take_of_length_le hi, List.drop_eq_nil_of_le hi]; exact ⟨h, .nil⟩
  · have e := cut_at h1
    rw [e] at h
    obtain ⟨a, b⟩ := h.split h2
    refine ⟨a, ?_⟩
    have : json.drop i = c :: json.drop (i + 1) := by
      obtain ⟨hi, h1⟩ := List.getElem?_eq_some_iff.1 h1
      rw [List.drop_eq_getElem_cons hi, h1]
    rw [this]
    exact .cons h2 b
  · cases i with
    | zero => simpa using ⟨Utf8.nil, h⟩
    | succ i =>
      rw [Nat.add_sub_cancel] at h1
      have e := cut_at h1
      rw [e] at h
      obtain ⟨a, b⟩ := h.split h2
      refine ⟨?_, b⟩
      obtain ⟨hi, h1⟩ := List.getElem?_eq_some_iff.1 h1
      rw [List.take_succ_eq_append_getElem hi, h1]
      exact a.append (.one h2)

theorem Beside.drop {json : Text} {i j : Nat} (hj : Beside json j) (h : i ≤ j) : Beside (json.drop i) (j - i) := by
  by_cases he : i = j
  · subst he; left; omega
  rcases hj with rfl | hj | ⟨c, h1, h2⟩ | ⟨c, h1, h2⟩
  · left; omega
  · right; left; simp; omega
  · right; right; left; exact ⟨c, by rw [List.getElem?_drop, ← h1]; congr 1; omega, h2⟩
  · right; right; right; exact ⟨c, by rw [List.getElem?_drop, ← h1]; congr 1; omega, h2⟩

/-- A piece of a UTF-8 text between two such places. -/
theorem Spec.Utf8.mid {json : Text} {i j : Nat} (h : Utf8 json) (hi : Beside json i) (hj : Beside json j) : Utf8 ((json.drop i).take (j - i)) := by
  by_cases hle : i ≤ j
  · exact ((h.cut hi).2.cut (hj.drop hle)).1
  · rw [show j - i = 0 by omega]; simpa using Utf8.nil

theorem slice_u8 {a w : Bytes} {lo hi : Int} (h : slice a lo hi = .ok w) :
    0 ≤ lo ∧ lo ≤ hi ∧ hi ≤ a.length ∧ w = (a.drop lo.toNat).take (hi.toNat - lo.toNat) := by
  unfold slice at h
  split at h
  · rename_i hh; cases h; exact ⟨hh.1, hh.2.1, hh.2.2, rfl⟩
  · cases h

theorem Spec.Utf8.slice {json w : Bytes} {lo hi : Int} (hu : Utf8 json) (h : Jin.slice json lo hi = .ok w) (hl : Beside json lo.toNat) (hh : Beside json hi.toNat) :
    Utf8 w := by
  obtain ⟨-, -, -, rfl⟩ := slice_u8 h
  exact hu.mid hl hh

theorem Spec.Utf8.replace {json new out : Bytes} {i j : Int} (hu : Utf8 json) (hn : Utf8 new) (h : Jin.replace json new i j = .ok out)
    (hi : Beside json i.toNat) (hj : Beside json j.toNat) : Utf8 out := by
  obtain ⟨-, -, -, -, rfl⟩ := replace_done h
  exact ((hu.cut hi).1.append hn).append (hu.cut hj).2

/-! ### Where `core` cuts -/

theorem space_ascii {c : UInt8} (h : space c = true) : c < 128 := by
  simp only [space, Bool.or_eq_true, beq_iff_eq] at h
  rcases h with ((rfl | rfl) | rfl) | rfl <;> decide

theorem sep_ascii {c : UInt8} (h : sepByte c = true) : c < 128 := by
  rw [sepByte_iff] at h
  simp only [beforeValue, List.mem_cons, List.not_mem_nil, or_false] at h
  rcases h with rfl | rfl | rfl | rfl | rfl | rfl | rfl <;> decide

theorem Opens.beside {json : Bytes} {i : Nat} (h : Opens json i) : Beside json i := by
  obtain ⟨-, c, h1, h2⟩ := h
  exact .inr (.inr (.inr ⟨c, h1, sep_ascii h2⟩))

theorem Spot.beside {json : Bytes} {l : Loc} (h : Spot json l) : Beside json l.start := by
  rcases h.sides with ⟨h1, -, -⟩ | ⟨h1, -⟩
  · exact .inr (.inr (.inr ⟨_, h1, by decide⟩))
  · exact h1.beside

/-- The end of a value found. -/
def EndR (json : Bytes) (r : Out Loc) : Prop := ∀ l, r = .ok l → Beside json l.stop

theorem endR_err {json : Bytes} (e : Err) : EndR json (.err e) := fun _ h => by cases h

theorem extent_end {json : Bytes} {ks : Int} {off : Nat} {c : UInt8} : EndR json (extent json ks off c) := by
  unfold extent
  simp only
  by_cases hb : (c == 91 || c == 123) = true
  · rw [if_pos hb]
    have : After (fun _ => True) (EndR json) (forUp json.length (braceBody json ks off) off ((0 : Int), false)) := by
      refine forUp_inv (P := fun _ _ => True) ?_ (fun _ _ _ _ => trivial) trivial
      intro i s hi _
      obtain ⟨d, hd⟩ := getElem_some hi
      unfold braceBody
      simp only [hd]
      (repeat' split) <;> first
        | exact trivial
        | (intro l hl
           cases hl
           rename_i hx _
           refine Beside.after hd ?_
           simp only [Bool.or_eq_true, beq_iff_eq] at hx
           rcases hx with rfl | rfl <;> decide)
    cases hz : forUp json.length (braceBody json ks off) off ((0 : Int), false) with
    | ret r => rw [hz] at this; exact this
    | done u => exact endR_err _
  · rw [if_neg hb]
    by_cases hq : (c == 34) = true
    · rw [if_pos hq]
      have : After (fun _ => True) (EndR json) (forUp json.length (stringBody json ks off) (off + 1) ()) := by
        refine forUp_inv (P := fun _ _ => True) ?_ (fun _ _ _ _ => trivial) trivial
        intro i s hi _
        obtain ⟨d, hd⟩ := getElem_some hi
        unfold stringBody
        simp only [hd]
        split
        · exact trivial
        · split
          · rename_i h34
            simp only [beq_iff_eq] at h34
            subst h34
            intro l hl
            cases hl
            exact Beside.at hd (by decide)
          · exact trivial
      cases hz : forUp json.length (stringBody json ks off) (off + 1) () with
      | ret r => rw [hz] at this; exact this
      | done u => exact endR_err _
    · rw [if_neg hq]
      have : After (fun _ => True) (EndR json) (forUp json.length (plainBody json ks off) off ()) := by
        refine forUp_inv (P := fun _ _ => True) ?_ (fun _ _ _ _ => trivial) trivial
        intro i s hi _
        obtain ⟨d, hd⟩ := getElem_some hi
        unfold plainBody
        simp only [hd]
        split
        · rename_i hx
          split
          · exact endR_err _
          · intro l hl
            cases hl
            refine Beside.at hd ?_
            simp only [Bool.or_eq_true, beq_iff_eq] at hx
            rcases hx with ((hx | rfl) | rfl) | rfl
            · exact space_ascii hx
            all_goals decide
        · exact trivial
      cases hz : forUp json.length (plainBody json ks off) off () with
      | ret r => rw [hz] at this; exact this
      | done u => exact endR_err _

/-- A key that is reported stands after a quote, or at the start of the text. -/
def KeyBeside (json : Bytes) (ks : Int) : Prop := ks = -1 ∨ ks = 0 ∨ 0 < ks ∧ json[ks.toNat - 1]? = some 34

theorem keyBody_beside {json : Bytes} {path : List Bytes} {s : KeySt} {off : Nat} (h1 : s.start = 0 ∨ 0 < s.start ∧ json[s.start - 1]? = some 34)
    (h2 : KeyBeside json s.keyStart) :
    After (fun t : KeySt => KeyBeside json t.keyStart) (fun _ => True) (forUp json.length (keyBody json path) off s) := by
  refine forUp_inv (P := fun _ (t : KeySt) => (t.start = 0 ∨ 0 < t.start ∧ json[t.start - 1]? = some 34) ∧ KeyBeside json t.keyStart) ?_
    (fun _ _ _ h => h.2) ⟨h1, h2⟩
  intro i t hi ⟨h1, h2⟩
  obtain ⟨d, hd⟩ := getElem_some hi
  unfold keyBody
  simp only [hd]
  by_cases h34 : d = 34
  · subst h34
    (repeat' split) <;> first | exact trivial | exact ⟨h1, h2⟩ | exact ⟨.inr ⟨by simp, by simpa using hd⟩, h2⟩ | (exfalso; simp_all)
  · (repeat' split) <;> first
      | exact trivial
      | exact ⟨h1, h2⟩
      | (exfalso; simp_all; done)
      | (show KeyBeside json _
         rcases h1 with h1 | h1
         · exact .inr (.inl (by simp [h1]))
         · exact .inr (.inr ⟨by simp; omega, by simpa using h1.2⟩))
      | (show KeyBeside json _; exact h2)

theorem coreStep_beside {json : Bytes} {path : List Bytes} {s : CoreSt} (h : KeyBeside json s.keyStart) :
    After (fun t : CoreSt => KeyBeside json t.keyStart) (fun _ => True) (coreStep json path s) := by
  unfold coreStep
  split
  · (repeat' split) <;> first | exact trivial | exact h
  · have := keyBody_beside (json := json) (path := path) (off := s.offset)
      (s := ⟨s.k, s.k, false, false, 0, 0, s.offset, s.brace, s.cur, s.keyStart⟩) (.inl rfl) h
    split
    · exact trivial
    · rename_i t ht
      rw [ht] at this
      split
      · exact trivial
      · exact this

theorem coreLoop_beside {json : Bytes} {path : List Bytes} : ∀ (fuel : Nat) {s : CoreSt}, KeyBeside json s.keyStart →
    After (fun t : CoreSt => KeyBeside json t.keyStart) (fun _ => True) (coreLoop json path fuel s)
  | 0, s, h => h
  | fuel + 1, s, h => by
    unfold coreLoop
    split
    · have := coreStep_beside (path := path) h
      split
      · exact trivial
      · rename_i t ht
        rw [ht] at this
        exact coreLoop_beside fuel (s := { t with k := t.k + 1 }) this
    · exact h

/-- Where `core` cuts: beside ASCII bytes. -/
theorem core_beside {json : Bytes} {path : List Bytes} (hp : path ≠ []) {l : Loc} (h : core json false path = .ok l) :
    Beside json l.start ∧ Beside json l.stop ∧ KeyBeside json l.keyStart := by
  refine ⟨(core_shape hp h).1.beside, ?_⟩
  obtain ⟨p, ps, rfl⟩ := List.exists_cons_of_ne_nil hp
  unfold core at h
  split at h
  · cases h
  simp only at h
  cases hs : skipSpaces json 0 with
  | none => rw [hs] at h; cases h
  | some off =>
    rw [hs] at h
    simp only at h
    cases hc : json[off]? with
    | none => rw [hc] at h; cases h
    | some c =>
      rw [hc] at h
      simp only at h
      have hks := coreLoop_beside (json := json) (path := p :: ps) (p :: ps).length (s := ⟨0, off, c, p, -1⟩) (.inl rfl)
      have := coreLoop_shape (json := json) (path := p :: ps) (p :: ps).length (s := ⟨0, off, c, p, -1⟩) (by simp) (by simp)
        ⟨fun hb => .inl (by simp only at hb ⊢; rw [hc, hb]), rfl, fun _ => .inl rfl⟩
      cases hz : coreLoop json (p :: ps) (p :: ps).length ⟨0, off, c, p, -1⟩ with
      | ret r => rw [hz] at this h; exact absurd h (this l)
      | done t =>
        rw [hz] at this h hks
        simp only at h
        unfold coreTail at h
        split at h
        · cases h
        · cases hs' : skipSpaces json t.offset with
          | none => rw [hs'] at h; cases h
          | some j =>
            rw [hs'] at h
            simp only [Bool.false_eq_true, if_false] at h
            cases hc' : json[j]? with
            | none => rw [hc'] at h; cases h
            | some d =>
              rw [hc'] at h
              simp only at h
              refine ⟨extent_end l h, ?_⟩
              rcases this.opens with ho | hbl
              · rw [extent_ks h]
                exact hks
              · rw [blank_skip hbl] at hs'; cases hs'

end Jin
