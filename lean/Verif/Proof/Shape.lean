import Verif.Proof.NoPanic
import Verif.Model.Set
/-!
# Proof.Shape — what `core` finds in arbitrary bytes

No assumption is made on the text.  Whatever `core` returns without an error starts after a
colon, a comma, an opening square bracket or whitespace, and is delimited.
-/

namespace Jin
open Spec

/-- Bytes a value may come after. -/
def sepByte (c : UInt8) : Bool := space c || c == 58 || c == 44 || c == 91

/-- The byte before `i` is one of them. -/
def Opens (json : Bytes) (i : Nat) : Prop := 0 < i ∧ ∃ c, json[i - 1]? = some c ∧ sepByte c = true

/-- Nothing but whitespace from `i` on. -/
def Blank (json : Bytes) (i : Nat) : Prop := ∀ j c, i ≤ j → json[j]? = some c → space c = true

def NotOk {α : Type} (r : Out α) : Prop := ∀ a, r ≠ .ok a

theorem notOk_err {α : Type} (e : Err) : NotOk (.err e : Out α) := fun _ h => by cases h
theorem notOk_panic {α : Type} : NotOk (.panic : Out α) := fun _ h => by cases h

section
variable {json : Bytes} {path : List Bytes}

theorem opens_succ {i : Nat} {c : UInt8} (hc : json[i]? = some c) (hs : sepByte c = true) : Opens json (i + 1) :=
  ⟨by omega, c, by simpa using hc, hs⟩

theorem blank_skip {i : Nat} (h : Blank json i) : skipSpaces json i = none := by
  fun_induction skipSpaces json i with
  | case1 => rfl
  | case2 i c hc hs ih => exact ih fun j c' hj => h j c' (by omega)
  | case3 i c hc hs => exact absurd (h i c (Nat.le_refl _) hc) hs

theorem skip_opens {i j : Nat} (h : Opens json i) (hs : skipSpaces json i = some j) : Opens json j ∧ i ≤ j ∧ ∃ c, json[j]? = some c ∧ space c = false := by
  fun_induction skipSpaces json i with
  | case1 => cases hs
  | case2 i c hc hsp ih =>
    obtain ⟨h1, h2, h3⟩ := ih (opens_succ hc (by simp [sepByte, hsp])) hs
    exact ⟨h1, by omega, h3⟩
  | case3 i c hc hsp => cases hs; exact ⟨h, Nat.le_refl _, c, hc, by simpa using hsp⟩

/-- An array bracket is where the state says, or there is nothing left. -/
def ArrInv (json : Bytes) (s : CoreSt) : Prop := s.brace = 91 → json[s.offset]? = some 91 ∨ Blank json s.offset

theorem zero_shape {k : Nat} {z : ZeroSt} {i : Nat} (hi : i = z.offset) (hb : z.brace = 91) (ho : Opens json i) :
    After (fun z' : ZeroSt => (k + 1 = path.length → Opens json z'.offset ∨ Blank json z'.offset) ∧
        (z'.brace = 91 → k + 1 ≠ path.length → json[z'.offset]? = some 91 ∨ Blank json z'.offset) ∧
        (z'.brace ≠ 91 → k + 1 ≠ path.length → path[k + 1]? = some z'.cur))
      NotOk (forUp json.length (zeroBody json path k) i z) := by
  refine forUp_inv (P := fun j s => s = z ∧ i ≤ j ∧ Opens json j ∧ ∀ n c, i ≤ n → n < j → json[n]? = some c → space c = true) ?_ ?_
    ⟨rfl, Nat.le_refl _, ho, by omega⟩
  · rintro j s hj ⟨rfl, hle, hop, hsp⟩
    obtain ⟨c, hc⟩ := getElem_some hj
    unfold zeroBody
    simp only [hc]
    split
    · split
      · split
        · rename_i hne
          have hne' : k + 1 ≠ path.length := by simpa using hne
          split
          · exact notOk_panic
          · rename_i p hp
            refine ⟨fun h => absurd h hne', fun hb _ => .inl ?_, fun _ _ => hp⟩
            simp only at hb ⊢
            rw [hc, hb]
        · rename_i hne
          have hne' : k + 1 = path.length := by simpa using hne
          exact ⟨fun _ => .inl hop, fun _ h => absurd hne' h, fun _ h => absurd hne' h⟩
      · split
        · exact notOk_err _
        · rename_i hne
          have hne' : k + 1 = path.length := by simpa using hne
          exact ⟨fun _ => .inl (hi ▸ ho), fun _ h => absurd hne' h, fun _ h => absurd hne' h⟩
    · rename_i hs
      have hs' : space c = true := by simpa using hs
      refine ⟨rfl, by omega, opens_succ hc (by simp [sepByte, hs']), fun n c' h1 h2 h3 => ?_⟩
      rcases Nat.lt_or_ge n j with h | h
      · exact hsp n c' h1 h h3
      · have : n = j := by omega
        subst this
        rw [hc] at h3; cases h3; exact hs'
  · rintro j s hj ⟨rfl, hle, hop, hsp⟩
    refine ⟨fun _ => .inl (hi ▸ ho), fun _ _ => .inr ?_, fun h => absurd hb h⟩
    rw [← hi]
    intro n c hn hc
    exact hsp n c hn (by have := lt_of_getElem? hc; omega) hc

theorem zero_blank {k : Nat} {z : ZeroSt} {i : Nat} (h : Blank json i) :
    forUp json.length (zeroBody json path k) i z = .done z := by
  induction hn : json.length - i using Nat.strongRecOn generalizing i with
  | _ n ih =>
    rcases Nat.lt_or_ge i json.length with hi | hi
    · obtain ⟨c, hc⟩ := getElem_some hi
      rw [forUp_next (s' := z) hi (by simp [zeroBody, hc, h i c (Nat.le_refl _) hc])]
      exact ih _ (by omega) (fun j c' hj => h j c' (by omega)) rfl
    · rw [forUp, if_neg (by omega)]

theorem not_jsonChar_space {a b : Bool} {c : UInt8} (h : space c = true) : isJSONChar a b c = false := by
  simp only [space, Bool.or_eq_true, beq_iff_eq] at h
  rcases h with ((rfl | rfl) | rfl) | rfl <;> cases a <;> cases b <;> decide

theorem arr_blank {k : Nat} {n : Int} {a : ArrSt} {i : Nat} (h : Blank json i) :
    forUp json.length (arrBody json path k n) i a = .done a := by
  induction hn : json.length - i using Nat.strongRecOn generalizing i with
  | _ m ih =>
    rcases Nat.lt_or_ge i json.length with hi | hi
    · obtain ⟨c, hc⟩ := getElem_some hi
      rw [forUp_next (s' := a) hi (by simp [arrBody, hc, not_jsonChar_space (h i c (Nat.le_refl _) hc)])]
      exact ih _ (by omega) (fun j c' hj => h j c' (by omega)) rfl
    · rw [forUp, if_neg (by omega)]

theorem peek_shape {k i : Nat} : After (fun _ => True) NotOk (forUp json.length (peekBody json path k) i ()) := by
  refine forUp_inv (P := fun _ _ => True) ?_ (fun _ _ _ _ => trivial) trivial
  intro i s hi _
  obtain ⟨c, hc⟩ := getElem_some hi
  unfold peekBody
  simp only [hc]
  (repeat' split) <;> simp [Step, NotOk]

theorem jump_shape {k : Nat} {cur : Bytes} {i : Nat} {s : JumpSt} :
    After (fun _ => True) NotOk (forUp json.length (jumpBody json k cur) i s) := by
  refine forUp_inv (P := fun _ _ => True) ?_ (fun _ _ _ _ => trivial) trivial
  intro i s hi _
  obtain ⟨c, hc⟩ := getElem_some hi
  unfold jumpBody
  simp only [hc]
  (repeat' split) <;> simp [Step, NotOk]

theorem arr_shape {k : Nat} {n : Int} {a : ArrSt} (hf : a.found = false) (hb : a.brace = 91) {i : Nat} (ho : json[a.offset]? = some 91) :
    After (fun a' : ArrSt => a'.found = true → (k + 1 = path.length → Opens json a'.offset) ∧
        (a'.brace = 91 → k + 1 ≠ path.length → json[a'.offset]? = some 91) ∧
        (a'.brace ≠ 91 → k + 1 ≠ path.length → path[k + 1]? = some a'.cur))
      NotOk (forUp json.length (arrBody json path k n) i a) := by
  refine forUp_inv (P := fun _ s => (s.found = true → k + 1 ≠ path.length) ∧ s.brace = 91 ∧ json[s.offset]? = some 91) ?_
    (fun _ _ _ h hf => ⟨fun e => absurd e (h.1 hf), fun _ _ => h.2.2, fun e => absurd h.2.1 e⟩) ⟨by simp [hf], hb, ho⟩
  rintro i s hi ⟨h1, h2⟩
  obtain ⟨c, hc⟩ := getElem_some hi
  unfold arrBody
  simp only [hc]
  split
  · exact ⟨h1, h2⟩
  split
  · split <;> exact ⟨h1, h2⟩
  split
  · exact ⟨h1, h2⟩
  split
  · rename_i hcomma
    simp only [Bool.and_eq_true, beq_iff_eq] at hcomma
    split
    · have := peek_shape (json := json) (path := path) (k := k) (i := i + 1)
      cases hp : forUp json.length (peekBody json path k) (i + 1) () with
      | ret r => rw [hp] at this; exact this
      | done u =>
        simp only
        split
        · rename_i hl
          have hl' : k + 1 = path.length := by simpa using hl
          exact fun _ => ⟨fun _ => opens_succ hc (by rw [hcomma.2]; decide), fun _ h => absurd hl' h, fun _ h => absurd hl' h⟩
        · rename_i hl
          exact ⟨fun _ => by simpa using hl, h2⟩
    · exact ⟨h1, h2⟩
  split
  · split
    · rename_i hfd
      split
      · exact notOk_panic
      · rename_i p hp
        refine fun _ => ⟨fun e => absurd e (h1 hfd), fun hb _ => ?_, fun _ _ => hp⟩
        simp only at hb ⊢
        rw [hc, hb]
    · exact ⟨h1, h2⟩
  split
  · split
    · exact notOk_err _
    · exact ⟨h1, h2⟩
  · exact ⟨h1, h2⟩

/-- An opening bracket. -/
def isOpen (c : UInt8) : Bool := c == 91 || c == 123

/-- No opening bracket from `i` on. -/
def NoOpen (json : Bytes) (i : Nat) : Prop := ∀ j c, i ≤ j → json[j]? = some c → isOpen c = false

/-- What the key search keeps. -/
structure KeyKeep (json : Bytes) (path : List Bytes) (k i : Nat) (s : KeySt) : Prop where
  le : k ≤ s.k
  lt : s.k < path.length
  more : s.found = true → s.k + 1 ≠ path.length
  brace : s.brace ≠ 91
  ks : s.keyStart = -1
  start_le : s.start ≤ i
  cur : path[s.k]? = some s.cur
  found : s.found = true → s.inQuote = false ∧ sameKey json s.cur s.start s.stop = true ∧
    ∀ j c, s.offset ≤ j → j < i → json[j]? = some c → isOpen c = false

/-- The key of the last path entry, in the text before the value. -/
def KeyAt (json : Bytes) (path : List Bytes) (ks : Int) (offset : Nat) : Prop :=
  ∃ (n : Nat) (key : Bytes), ks = n ∧ path.getLast? = some key ∧ n < offset ∧ (json.drop n).take key.length = key ∧
    n + key.length ≤ json.length

/-- What it has when it ends. -/
structure KeyShape (json : Bytes) (path : List Bytes) (k : Nat) (s : KeySt) : Prop where
  le : k ≤ s.k
  lt : s.k < path.length
  last : s.found = true → s.k + 1 = path.length → Opens json s.offset ∧ KeyAt json path s.keyStart s.offset
  brace : s.brace = 91 → json[s.offset]? = some 91
  ks : s.found = true → s.k + 1 ≠ path.length → s.keyStart = -1 ∧ (s.brace ≠ 91 → NoOpen json s.offset)

theorem sameKey_iff {cur : Bytes} {a b : Nat} :
    sameKey json cur a b = true ↔ (cur.length : Int) = (b : Int) - a ∧ (json.drop a).take cur.length = cur := by
  simp [sameKey]

theorem KeyKeep.mono {k i j : Nat} {s : KeySt} (h : KeyKeep json path k i s) (hij : i ≤ j) (hf : s.found = false) :
    KeyKeep json path k j s :=
  { h with
    start_le := Nat.le_trans h.start_le hij
    found := fun h' => by rw [hf] at h'; cases h' }

theorem KeyKeep.next {k i : Nat} {s : KeySt} {c : UInt8} (h : KeyKeep json path k i s) (hc : json[i]? = some c)
    (ho : s.found = true → isOpen c = false) : KeyKeep json path k (i + 1) s :=
  { h with
    start_le := Nat.le_succ_of_le h.start_le
    found := fun hf => by
      obtain ⟨h1, h2, h3⟩ := h.found hf
      refine ⟨h1, h2, fun j d hj hlt hd => ?_⟩
      rcases Nat.lt_or_ge j i with hji | hji
      · exact h3 j d hj hji hd
      · have : j = i := by omega
        subst this
        rw [hc] at hd; cases hd; exact ho hf }

theorem key_shape {k : Nat} {t : KeySt} {i : Nat} (ht : KeyKeep json path k i t) :
    After (KeyShape json path k) NotOk (forUp json.length (keyBody json path) i t) := by
  refine forUp_inv (P := fun i s => KeyKeep json path k i s) ?_ ?_ ht
  case refine_2 =>
    intro i s hi h
    refine ⟨h.le, h.lt, fun hf e => absurd e (h.more hf), fun hb => absurd hb h.brace, fun hf _ => ⟨h.ks, fun _ => ?_⟩⟩
    intro j c hj hc
    exact (h.found hf).2.2 j c hj (by have := lt_of_getElem? hc; omega) hc
  intro i s hi h
  obtain ⟨c, hc⟩ := getElem_some hi
  unfold keyBody
  simp only [hc]
  split
  · rename_i hch
    refine h.next hc fun _ => ?_
    simp only [isJSONChar, Bool.not_eq_true', Bool.or_eq_false_iff] at hch
    simp [isOpen, hch]
  split
  · rename_i h34
    simp only [beq_iff_eq] at h34
    subst h34
    split
    · exact h.next hc fun _ => rfl
    rename_i hf
    have hf' : s.found = false := by simpa using hf
    split
    · exact h.next hc fun _ => rfl
    have h' := h.next hc fun _ => rfl
    split
    · exact h'
    · split
      · exact { h' with
          start_le := Nat.le_refl _
          found := fun e => absurd e hf }
      · exact { h' with
          found := fun e => absurd e hf }
    · split
      · exact { h' with
          start_le := Nat.le_refl _
          found := fun e => absurd e hf }
      · exact { h' with
          found := fun e => absurd e hf }
  split
  · rename_i hq
    refine h.next hc fun hf => absurd (h.found hf).1 (by simp [hq])
  rename_i hq
  have hq' : s.inQuote = false := by simpa using hq
  split
  · rename_i hcolon
    simp only [Bool.and_eq_true, beq_iff_eq] at hcolon
    obtain ⟨hlev, rfl⟩ := hcolon
    split
    · rename_i hsame
      split
      · rename_i hl
        have hl' : s.k + 1 = path.length := by simpa using hl
        refine ⟨h.le, h.lt, fun _ _ => ⟨opens_succ hc (by decide), s.start, s.cur, rfl, ?_, ?_, ?_, ?_⟩, fun hb => absurd hb h.brace,
          fun _ hne => absurd hl' hne⟩
        · rw [List.getLast?_eq_getElem?, ← hl', Nat.add_sub_cancel]; exact h.cur
        · have := h.start_le
          simp only; omega
        · exact (sameKey_iff.1 hsame).2
        · have h1 := congrArg List.length (sameKey_iff.1 hsame).2
          have := h.start_le
          simp only [List.length_take, List.length_drop] at h1
          omega
      · rename_i hl
        have h' := h.next hc fun _ => rfl
        exact { h' with
          more := fun _ => by simpa using hl
          found := fun _ => ⟨hq', hsame, fun j d h1 h2 => absurd h1 (by simp only; omega)⟩ }
    · rename_i hsame
      have hf' : s.found = false := by
        cases hf : s.found with
        | false => rfl
        | true => exact absurd (h.found hf).2.1 hsame
      have := jump_shape (json := json) (k := s.k) (cur := s.cur) (i := i) (s := ⟨s.level, s.inQuote, none⟩)
      cases hp : forUp json.length (jumpBody json s.k s.cur) i ⟨s.level, s.inQuote, none⟩ with
      | ret r => rw [hp] at this; exact this
      | done u =>
        have h' := h.mono (j := max i (u.stop.getD i) + 1) (by omega) hf'
        exact { h' with
          found := fun e => absurd e (by simp [hf']) }
  split
  · rename_i hb
    simp only [beq_iff_eq] at hb
    subst hb
    split
    · rename_i hfd
      split
      · exact notOk_panic
      · exact ⟨h.le, h.lt, fun _ e => absurd e (h.more hfd), fun _ => hc, fun _ _ => ⟨h.ks, fun hb => absurd rfl hb⟩⟩
    · rename_i hf
      have h' := h.next hc fun e => absurd e hf
      exact { h' with
        found := fun e => absurd e hf }
  split
  · rename_i hb
    simp only [beq_iff_eq] at hb
    subst hb
    split
    · rename_i hfd
      split
      · exact notOk_panic
      · rename_i q hpq
        have := h.lt
        have := h.more hfd
        have := h.le
        exact
          { le := by show k ≤ s.k + 1; omega
            lt := by show s.k + 1 < _; omega
            more := fun hf => by cases hf
            brace := h.brace
            ks := h.ks
            start_le := Nat.le_succ_of_le h.start_le
            cur := hpq
            found := fun hf => by cases hf }
    · rename_i hf
      have h' := h.next hc fun e => absurd e hf
      exact { h' with
        found := fun e => absurd e hf }
  split
  · rename_i hcl
    split
    · exact notOk_err _
    · have h' := h.next hc fun _ => by
        simp only [Bool.or_eq_true, beq_iff_eq] at hcl
        rcases hcl with rfl | rfl <;> rfl
      exact { h' with }
  · rename_i h1 h2 _
    exact h.next hc fun _ => by simp [isOpen, h1, h2]


/-- Without an opening bracket the key search finds nothing. -/
theorem key_noOpen {i : Nat} {t : KeySt} (h : NoOpen json i) (hf : t.found = false) (hl : t.level ≤ t.k) :
    After (fun s : KeySt => s.found = false) NotOk (forUp json.length (keyBody json path) i t) := by
  refine forUp_inv (P := fun j s => i ≤ j ∧ s.found = false ∧ s.level ≤ s.k) ?_ (fun _ _ _ h => h.2.1) ⟨Nat.le_refl _, hf, hl⟩
  rintro j s hj ⟨h1, h2, h3⟩
  obtain ⟨c, hc⟩ := getElem_some hj
  have ho := h j c h1 hc
  simp only [isOpen, Bool.or_eq_false_iff] at ho
  have hne : (s.level == s.k + 1) = false := by simp; omega
  have hne' : (s.level != s.k + 1) = true := by simp; omega
  unfold keyBody
  simp only [hc, ho.1, ho.2, h2, hne, hne', Bool.false_and, Bool.false_eq_true, if_false, if_true]
  (repeat' split) <;> first
    | exact ⟨Nat.le_succ_of_le h1, h2, h3⟩
    | exact notOk_err _
    | exact ⟨Nat.le_succ_of_le h1, rfl, by simp only; omega⟩

/-- The state of `core` between iterations. -/
structure CoreKeep (json : Bytes) (path : List Bytes) (s : CoreSt) : Prop where
  arr : ArrInv json s
  ks : s.keyStart = -1
  cur : s.brace ≠ 91 → path[s.k]? = some s.cur ∨ NoOpen json s.offset

/-- The state after the last iteration. -/
structure CoreEnd (json : Bytes) (path : List Bytes) (s : CoreSt) : Prop where
  opens : Opens json s.offset ∨ Blank json s.offset
  ks : s.keyStart = -1 ∨ KeyAt json path s.keyStart s.offset

theorem step_shape {s : CoreSt} (hk : s.k < path.length) (h : CoreKeep json path s) :
    After (fun t : CoreSt => s.k ≤ t.k ∧ t.k < path.length ∧ (t.k + 1 = path.length → CoreEnd json path t) ∧
        (t.k + 1 ≠ path.length → CoreKeep json path { t with k := t.k + 1 }))
      NotOk (coreStep json path s) := by
  unfold coreStep
  split
  · rename_i hb
    have hb' : s.brace = 91 := by simpa using hb
    cases atoi s.cur with
    | none => exact notOk_err _
    | some n =>
      simp only
      rcases h.arr hb' with h91 | hbl
      · split
        · have := zero_shape (path := path) (k := s.k) (z := ⟨s.offset + 1, s.brace, s.cur⟩) rfl hb' (opens_succ h91 (by decide))
          cases hz : forUp json.length (zeroBody json path s.k) (s.offset + 1) ⟨s.offset + 1, s.brace, s.cur⟩ with
          | ret r => rw [hz] at this; exact this
          | done z =>
            rw [hz] at this
            exact ⟨Nat.le_refl _, hk, fun e => ⟨this.1 e, .inl h.ks⟩, fun hne => ⟨fun hbr => this.2.1 hbr hne, h.ks, fun hbr => .inl (this.2.2 hbr hne)⟩⟩
        · have := arr_shape (json := json) (path := path) (k := s.k) (n := n) (a := ⟨0, false, false, 0, s.offset, s.brace, s.cur⟩) rfl hb' (i := s.offset) h91
          cases hz : forUp json.length (arrBody json path s.k n) s.offset ⟨0, false, false, 0, s.offset, s.brace, s.cur⟩ with
          | ret r => rw [hz] at this; exact this
          | done z =>
            rw [hz] at this
            simp only
            split
            · exact notOk_err _
            · rename_i hf
              have := this (by simpa using hf)
              exact ⟨Nat.le_refl _, hk, fun e => ⟨.inl (this.1 e), .inl h.ks⟩,
                fun hne => ⟨fun hbr => .inl (this.2.1 hbr hne), h.ks, fun hbr => .inl (this.2.2 hbr hne)⟩⟩
      · have hbl' : Blank json (s.offset + 1) := fun j c hj => hbl j c (by omega)
        split
        · rw [zero_blank hbl']
          exact ⟨Nat.le_refl _, hk, fun _ => ⟨.inr hbl', .inl h.ks⟩, fun _ => ⟨fun _ => .inr hbl', h.ks, fun hbr => absurd hb' hbr⟩⟩
        · rw [arr_blank hbl]
          exact notOk_err _
  · rename_i hb
    have hb' : s.brace ≠ 91 := by simpa using hb
    rcases h.cur hb' with hcur | hno
    · have := key_shape (json := json) (path := path) (k := s.k) (t := ⟨s.k, s.k, false, false, 0, 0, s.offset, s.brace, s.cur, s.keyStart⟩) (i := s.offset)
        ⟨Nat.le_refl _, hk, (fun h => by cases h), hb', h.ks, Nat.zero_le _, hcur, fun h => by cases h⟩
      cases hz : forUp json.length (keyBody json path) s.offset ⟨s.k, s.k, false, false, 0, 0, s.offset, s.brace, s.cur, s.keyStart⟩ with
      | ret r => rw [hz] at this; exact this
      | done t =>
        rw [hz] at this
        simp only
        split
        · exact notOk_err _
        · rename_i hf
          have hf' : t.found = true := by simpa using hf
          refine ⟨this.le, this.lt, fun e => ?_, fun hne => ⟨fun hbr => .inl (this.brace hbr), (this.ks hf' hne).1, fun hbr => .inr ((this.ks hf' hne).2 hbr)⟩⟩
          have := this.last hf' e
          exact ⟨.inl this.1, .inr this.2⟩
    · have := key_noOpen (json := json) (path := path) (t := ⟨s.k, s.k, false, false, 0, 0, s.offset, s.brace, s.cur, s.keyStart⟩) (i := s.offset)
        hno rfl (Nat.le_refl _)
      cases hz : forUp json.length (keyBody json path) s.offset ⟨s.k, s.k, false, false, 0, 0, s.offset, s.brace, s.cur, s.keyStart⟩ with
      | ret r => rw [hz] at this; exact this
      | done t =>
        rw [hz] at this
        simp only [show t.found = false from this]
        exact notOk_err _

theorem coreLoop_shape : ∀ (fuel : Nat) {s : CoreSt}, path.length ≤ s.k + fuel → s.k < path.length → CoreKeep json path s →
    After (CoreEnd json path) NotOk (coreLoop json path fuel s)
  | 0, s, h1, h2, _ => by omega
  | fuel + 1, s, h1, h2, h => by
    unfold coreLoop
    rw [if_pos h2]
    have := step_shape (path := path) h2 h
    cases hz : coreStep json path s with
    | ret r => rw [hz] at this; exact this
    | done t =>
      rw [hz] at this
      obtain ⟨k1, k2, k3, k4⟩ := this
      simp only
      by_cases he : t.k + 1 = path.length
      · have : coreLoop json path fuel { t with k := t.k + 1 } = .done { t with k := t.k + 1 } := by
          cases fuel with
          | zero => rfl
          | succ n => rw [coreLoop, if_neg (by simp only; omega)]
        rw [this]
        exact ⟨(k3 he).opens, (k3 he).ks⟩
      · exact coreLoop_shape fuel (s := { t with k := t.k + 1 }) (by simp only; omega) (by simp only; omega) (k4 he)

/-- Where a value found by `core` sits in the text. -/
structure Spot (json : Bytes) (l : Loc) : Prop where
  pos : 0 < l.start
  le : l.start ≤ l.stop
  len : l.stop ≤ json.length
  /-- between two quotes, or after a separator -/
  sides : (json[l.start - 1]? = some 34 ∧ json[l.stop]? = some 34 ∧ Opens json (l.start - 1)) ∨
    (Opens json l.start ∧ l.start < l.stop)

def SpotR (json : Bytes) (ks : Int) (off : Nat) (r : Out Loc) : Prop := ∀ l, r = .ok l → l.keyStart = ks ∧ Spot json l ∧ off ≤ l.start

theorem spotR_err {ks : Int} {off : Nat} (e : Err) : SpotR json ks off (.err e) := fun _ h => by cases h

theorem extent_shape {ks : Int} {off : Nat} {c : UInt8} (hc : json[off]? = some c) (ho : Opens json off) :
    SpotR json ks off (extent json ks off c) := by
  have hlt := lt_of_getElem? hc
  unfold extent
  simp only
  have hpos := ho.1
  by_cases hb : (c == 91 || c == 123) = true
  · rw [if_pos hb]
    have : After (fun _ => True) (SpotR json ks off) (forUp json.length (braceBody json ks off) off ((0 : Int), false)) := by
      refine forUp_inv (P := fun i s => off ≤ i) ?_ (fun _ _ _ _ => trivial) (Nat.le_refl _)
      intro i s hi hle
      obtain ⟨d, hd⟩ := getElem_some hi
      unfold braceBody
      simp only [hd]
      (repeat' split) <;> first
        | exact Nat.le_succ_of_le hle
        | (intro l hl
           cases hl
           exact ⟨rfl, ⟨hpos, by simp only; omega, by simp only; omega, .inr ⟨ho, by simp only; omega⟩⟩, Nat.le_refl _⟩)
    cases hz : forUp json.length (braceBody json ks off) off ((0 : Int), false) with
    | ret r => rw [hz] at this; exact this
    | done u => exact spotR_err _
  · rw [if_neg hb]
    by_cases hq : (c == 34) = true
    · rw [if_pos hq]
      simp only [beq_iff_eq] at hq
      subst hq
      have : After (fun _ => True) (SpotR json ks off) (forUp json.length (stringBody json ks off) (off + 1) ()) := by
        refine forUp_inv (P := fun i s => off + 1 ≤ i) ?_ (fun _ _ _ _ => trivial) (Nat.le_refl _)
        intro i s hi hle
        obtain ⟨d, hd⟩ := getElem_some hi
        unfold stringBody
        simp only [hd]
        split
        · show off + 1 ≤ max i (i + 1) + 1
          omega
        · split
          · rename_i h34
            simp only [beq_iff_eq] at h34
            subst h34
            intro l hl
            cases hl
            exact ⟨rfl, ⟨by simp only; omega, hle, by simp only; omega, .inl ⟨by simpa using hc, hd, by simpa using ho⟩⟩, Nat.le_succ _⟩
          · exact Nat.le_succ_of_le hle
      cases hz : forUp json.length (stringBody json ks off) (off + 1) () with
      | ret r => rw [hz] at this; exact this
      | done u => exact spotR_err _
    · rw [if_neg hq]
      have : After (fun _ => True) (SpotR json ks off) (forUp json.length (plainBody json ks off) off ()) := by
        refine forUp_inv (P := fun i s => off ≤ i) ?_ (fun _ _ _ _ => trivial) (Nat.le_refl _)
        intro i s hi hle
        obtain ⟨d, hd⟩ := getElem_some hi
        unfold plainBody
        simp only [hd]
        split
        · split
          · exact spotR_err _
          · rename_i hne
            intro l hl
            cases hl
            have : off ≠ i := by simpa using hne
            exact ⟨rfl, ⟨hpos, hle, by simp only; omega, .inr ⟨ho, by simp only; omega⟩⟩, Nat.le_refl _⟩
        · exact Nat.le_succ_of_le hle
      cases hz : forUp json.length (plainBody json ks off) off () with
      | ret r => rw [hz] at this; exact this
      | done u => exact spotR_err _

/-- Whatever `core` finds lies in the text, delimited; a key it reports is in the text before it. -/
theorem core_shape (hp : path ≠ []) {l : Loc} (h : core json false path = .ok l) :
    Spot json l ∧ (l.keyStart = -1 ∨ KeyAt json path l.keyStart l.start) := by
  obtain ⟨p, ps, rfl⟩ := List.exists_cons_of_ne_nil hp
  unfold core at h
  split at h
  · cases h
  · simp only at h
    cases hs : skipSpaces json 0 with
    | none => rw [hs] at h; cases h
    | some off =>
      rw [hs] at h
      simp only at h
      cases hc : json[off]? with
      | none => rw [hc] at h; cases h
      | some c =>
        rw [hc] at h
        simp only at h
        have := coreLoop_shape (json := json) (path := p :: ps) (p :: ps).length (s := ⟨0, off, c, p, -1⟩) (by simp) (by simp)
          ⟨fun hb => .inl (by simp only at hb ⊢; rw [hc, hb]), rfl, fun _ => .inl rfl⟩
        cases hz : coreLoop json (p :: ps) (p :: ps).length ⟨0, off, c, p, -1⟩ with
        | ret r => rw [hz] at this h; exact absurd h (this l)
        | done t =>
          rw [hz] at this h
          simp only at h
          unfold coreTail at h
          split at h
          · cases h
          · cases hs' : skipSpaces json t.offset with
            | none => rw [hs'] at h; cases h
            | some j =>
              rw [hs'] at h
              simp only [Bool.false_eq_true, if_false] at h
              cases hc' : json[j]? with
              | none => rw [hc'] at h; cases h
              | some d =>
                rw [hc'] at h
                simp only at h
                rcases this.opens with ho | hbl
                · obtain ⟨h1, h2, -⟩ := skip_opens ho hs'
                  obtain ⟨e1, e2, e3⟩ := extent_shape hc' h1 l h
                  refine ⟨e2, this.ks.imp (e1.trans ·) ?_⟩
                  rintro ⟨n, key, k1, k2, k3, k4⟩
                  exact ⟨n, key, e1.trans k1, k2, by omega, k4⟩
                · rw [blank_skip hbl] at hs'; cases hs'

end

end Jin
