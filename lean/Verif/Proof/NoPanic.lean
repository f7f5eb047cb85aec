import Verif.Proof.Skip
import Verif.Model.Get
/-!
# Proof.NoPanic — `core` on arbitrary bytes whose last byte needs no next one
-/

namespace Jin
open Spec

/-- What holds of the result of a loop: `Q` when it ends, `R` of what it returns. -/
def After {σ ρ : Type} (Q : σ → Prop) (R : ρ → Prop) : LoopRes σ ρ → Prop
  | .done s => Q s
  | .ret r => R r

/-- What holds of the result of a loop body. -/
def Step {σ ρ : Type} (i : Nat) (P : Nat → σ → Prop) (Q : σ → Prop) (R : ρ → Prop) : Ctl σ ρ → Prop
  | .next s => P (i + 1) s
  | .goto j s => P (max i j + 1) s
  | .brk s => Q s
  | .ret r => R r

/-- Invariants of a loop: `P` holds at every index, `Q` when it ends, `R` of what it returns. -/
theorem forUp_inv {σ ρ : Type} {hi : Nat} {body : Nat → σ → Ctl σ ρ} {P : Nat → σ → Prop} {Q : σ → Prop} {R : ρ → Prop}
    (step : ∀ i s, i < hi → P i s → Step i P Q R (body i s))
    (fin : ∀ i s, hi ≤ i → P i s → Q s) {i : Nat} {s : σ} (h : P i s) :
    After Q R (forUp hi body i s) := by
  fun_induction forUp hi body i s with
  | case1 i s hlt s' hb ih => exact ih (by have := step i s hlt h; rwa [hb] at this)
  | case2 i s hlt j s' hb ih => exact ih (by have := step i s hlt h; rwa [hb] at this)
  | case3 i s hlt s' hb => have := step i s hlt h; rwa [hb] at this
  | case4 i s hlt r hb => have := step i s hlt h; rwa [hb] at this
  | case5 i s hlt => exact fin i s (by omega) h

/-- The result is an error. -/
def IsErr {α : Type} (r : Out α) : Prop := ∃ e, r = .err e

/-- Bytes after which `core` reads on without looking whether there is a next byte: whitespace,
colon, comma, opening square bracket. -/
def needsNext (c : UInt8) : Bool := Jin.space c || c == 58 || c == 44 || c == 91

/-- The last byte is none of these. -/
def Settled (json : Bytes) : Prop := ∀ c, json.getLast? = some c → needsNext c = false

theorem Settled.lt {json : Bytes} (h : Settled json) {i : Nat} {c : UInt8} (hc : json[i]? = some c) (hn : needsNext c = true) :
    i + 1 < json.length := by
  have hi := lt_of_getElem? hc
  rcases Nat.lt_or_ge (i + 1) json.length with hlt | hge
  · exact hlt
  · exfalso
    have : i = json.length - 1 := by omega
    rw [this, ← List.getLast?_eq_getElem?] at hc
    rw [h c hc] at hn
    cases hn

theorem Settled.space {json : Bytes} (h : Settled json) {i : Nat} {c : UInt8} (hc : json[i]? = some c) (hs : space c = true) :
    i + 1 < json.length := h.lt hc (by simp [needsNext, hs])

theorem Settled.skip {json : Bytes} (h : Settled json) (i : Nat) (hi : i < json.length) :
    ∃ j c, skipSpaces json i = some j ∧ i ≤ j ∧ json[j]? = some c ∧ (i < j → ∃ b, json[j - 1]? = some b ∧ Jin.space b = true) := by
  induction hn : json.length - i using Nat.strongRecOn generalizing i with
  | _ n ih =>
    have hget : json[i]? = some json[i] := List.getElem?_eq_getElem hi
    by_cases hs : Jin.space json[i]
    · obtain ⟨j, c, h1, h2, h3, h4⟩ := ih (json.length - (i + 1)) (by omega) (i + 1) (h.space hget hs) rfl
      refine ⟨j, c, ?_, by omega, h3, ?_⟩
      · rw [skipSpaces.eq_def]
        split
        · rename_i hnone; rw [hget] at hnone; cases hnone
        · rename_i c' hc'
          rw [hget, Option.some.injEq] at hc'; subst hc'
          rw [if_pos hs]; exact h1
      · intro _
        rcases Nat.lt_or_ge (i + 1) j with hlt | hge
        · exact h4 hlt
        · have : j - 1 = i := by omega
          rw [this]; exact ⟨_, hget, hs⟩
    · refine ⟨i, json[i], ?_, Nat.le_refl _, hget, by omega⟩
      rw [skipSpaces.eq_def]
      split
      · rename_i hnone; rw [hget] at hnone; cases hnone
      · rename_i c' hc'
        rw [hget, Option.some.injEq] at hc'; subst hc'
        rw [if_neg hs]

section
variable {json : Bytes} {path : List Bytes}

/-- The state of `core` between iterations: inside the text, an array bracket is where it says. -/
def CoreInv (json : Bytes) (s : CoreSt) : Prop := s.offset < json.length ∧ (s.brace = 91 → s.offset + 1 < json.length)

theorem getElem_some {i : Nat} (h : i < json.length) : ∃ c, json[i]? = some c := ⟨_, List.getElem?_eq_getElem h⟩

theorem path_some {path : List Bytes} {k : Nat} (h1 : k < path.length) (h2 : ¬ k + 1 = path.length) : ∃ p, path[k + 1]? = some p :=
  ⟨_, List.getElem?_eq_getElem (by omega)⟩

theorem zero_inv (hj : Settled json) {k : Nat} (hk : k < path.length) {z : ZeroSt} {i : Nat} (hi : i < json.length) (hz : z.offset < json.length) :
    After (fun z' : ZeroSt => z'.offset < json.length ∧ (k + 1 < path.length → z'.brace = 91 → z'.offset + 1 < json.length))
      IsErr (forUp json.length (zeroBody json path k) i z) := by
  refine forUp_inv (P := fun i s => i < json.length ∧ s = z) ?_ (fun i s h1 h2 => absurd h2.1 (by omega)) ⟨hi, rfl⟩
  rintro i s hi ⟨-, rfl⟩
  obtain ⟨c, hc⟩ := getElem_some hi
  unfold zeroBody
  simp only [hc]
  split
  · split
    · rename_i hb
      have hlt : c = 91 → i + 1 < json.length := by
        rintro rfl
        exact hj.lt hc (by decide)
      split
      · rename_i hne
        obtain ⟨p, hp⟩ := path_some hk (by simpa using hne)
        rw [hp]
        exact ⟨hi, fun _ hb => hlt hb⟩
      · exact ⟨hi, fun _ hb => hlt hb⟩
    · split
      · exact ⟨_, rfl⟩
      · rename_i hne
        refine ⟨hz, fun hlt => absurd hlt ?_⟩
        simp only [bne_iff_ne, ne_eq, Classical.not_not] at hne
        omega
  · rename_i hs
    exact ⟨hj.space hc (by simpa using hs), rfl⟩

theorem peek_inv {k i : Nat} : After (fun _ => True) IsErr (forUp json.length (peekBody json path k) i ()) := by
  refine forUp_inv (P := fun _ _ => True) ?_ (fun _ _ _ _ => trivial) trivial
  intro i s hi _
  obtain ⟨c, hc⟩ := getElem_some hi
  unfold peekBody
  simp only [hc]
  (repeat' split) <;> simp [Step, IsErr]

theorem jump_inv {k : Nat} {cur : Bytes} {i : Nat} {s : JumpSt} :
    After (fun _ => True) IsErr (forUp json.length (jumpBody json k cur) i s) := by
  refine forUp_inv (P := fun _ _ => True) ?_ (fun _ _ _ _ => trivial) trivial
  intro i s hi _
  obtain ⟨c, hc⟩ := getElem_some hi
  unfold jumpBody
  simp only [hc]
  (repeat' split) <;> simp [Step, IsErr]

theorem arr_inv (hj : Settled json) {k : Nat} (hk : k < path.length) {n : Int} {a : ArrSt} (hf : a.found = false)
    (ho : a.offset + 1 < json.length) {i : Nat} :
    After (fun a' : ArrSt => a'.found = true → a'.offset < json.length ∧ (k + 1 < path.length → a'.brace = 91 → a'.offset + 1 < json.length))
      IsErr (forUp json.length (arrBody json path k n) i a) := by
  refine forUp_inv (P := fun _ s => s.offset + 1 < json.length ∧ (s.found = true → k + 1 ≠ path.length)) ?_
    (fun _ _ _ h _ => ⟨by omega, fun _ _ => h.1⟩) ⟨ho, by simp [hf]⟩
  rintro i s hi ⟨h1, h2⟩
  obtain ⟨c, hc⟩ := getElem_some hi
  unfold arrBody
  simp only [hc]
  split
  · exact ⟨h1, h2⟩
  split
  · split <;> exact ⟨h1, h2⟩
  split
  · exact ⟨h1, h2⟩
  split
  · rename_i hcomma
    have hlt : i + 1 < json.length := by
      refine hj.lt hc ?_
      simp only [Bool.and_eq_true, beq_iff_eq] at hcomma
      rw [hcomma.2]; decide
    split
    · have := peek_inv (json := json) (path := path) (k := k) (i := i + 1)
      cases hp : forUp json.length (peekBody json path k) (i + 1) () with
      | ret r => rw [hp] at this; exact this
      | done u =>
        simp only
        split
        · rename_i hl
          refine fun _ => ⟨hlt, fun h => absurd h ?_⟩
          simp only [beq_iff_eq] at hl
          omega
        · rename_i hl
          exact ⟨h1, fun _ => by simpa using hl⟩
    · exact ⟨h1, h2⟩
  split
  · rename_i hb
    have hlt : c = 91 → i + 1 < json.length := by
      rintro rfl
      exact hj.lt hc (by decide)
    split
    · rename_i hfd
      obtain ⟨p, hp⟩ := path_some hk (h2 hfd)
      rw [hp]
      exact fun _ => ⟨hi, fun _ hb => hlt hb⟩
    · exact ⟨h1, h2⟩
  split
  · split
    · exact ⟨_, rfl⟩
    · exact ⟨h1, h2⟩
  · exact ⟨h1, h2⟩

/-- What the key search keeps. -/
structure KeyInv (json : Bytes) (path : List Bytes) (s : KeySt) : Prop where
  lt : s.k < path.length
  more : s.found = true → s.k + 1 ≠ path.length
  off : s.offset < json.length
  brace : s.brace ≠ 91

/-- What it has when it ends. -/
structure KeyEnd (json : Bytes) (path : List Bytes) (s : KeySt) : Prop where
  lt : s.k < path.length
  off : s.offset < json.length
  brace : s.brace = 91 → s.offset + 1 < json.length

theorem key_inv (hj : Settled json) {t : KeySt} (ht : KeyInv json path t) {i : Nat} :
    After (KeyEnd json path) IsErr (forUp json.length (keyBody json path) i t) := by
  refine forUp_inv (P := fun _ s => KeyInv json path s) ?_
    (fun _ _ _ h => ⟨h.lt, h.off, fun hb => absurd hb h.brace⟩) ht
  intro i s hi h
  obtain ⟨c, hc⟩ := getElem_some hi
  unfold keyBody
  simp only [hc]
  split
  · exact h
  split
  · split
    · exact h
    split
    · exact h
    split
    · exact h
    · split <;> exact ⟨h.lt, h.more, h.off, h.brace⟩
    · split <;> exact ⟨h.lt, h.more, h.off, h.brace⟩
  split
  · exact h
  split
  · rename_i hcolon
    have hlt : i + 1 < json.length := by
      refine hj.lt hc ?_
      simp only [Bool.and_eq_true, beq_iff_eq] at hcolon
      rw [hcolon.2]; decide
    split
    · split
      · exact ⟨h.lt, hlt, fun hb => absurd hb h.brace⟩
      · rename_i hl
        exact ⟨h.lt, fun _ => by simpa using hl, hlt, h.brace⟩
    · have := jump_inv (json := json) (k := s.k) (cur := s.cur) (i := i) (s := ⟨s.level, s.inQuote, none⟩)
      cases hp : forUp json.length (jumpBody json s.k s.cur) i ⟨s.level, s.inQuote, none⟩ with
      | ret r => rw [hp] at this; exact this
      | done u => exact ⟨h.lt, h.more, h.off, h.brace⟩
  split
  · rename_i hb
    have hlt : i + 1 < json.length := by
      refine hj.lt hc ?_
      simp only [beq_iff_eq] at hb
      rw [hb]; decide
    split
    · rename_i hfd
      obtain ⟨p, hp⟩ := path_some h.lt (h.more hfd)
      rw [hp]
      exact ⟨h.lt, hi, fun _ => hlt⟩
    · exact ⟨h.lt, h.more, h.off, h.brace⟩
  split
  · split
    · rename_i hfd
      obtain ⟨p, hp⟩ := path_some h.lt (h.more hfd)
      rw [hp]
      have := h.lt
      have := h.more hfd
      exact ⟨by show s.k + 1 < _; omega, fun hf => (by cases hf), h.off, h.brace⟩
    · exact ⟨h.lt, h.more, h.off, h.brace⟩
  split
  · split
    · exact ⟨_, rfl⟩
    · exact ⟨h.lt, h.more, h.off, h.brace⟩
  · exact h

theorem step_inv (hj : Settled json) {s : CoreSt} (hk : s.k < path.length) (h : CoreInv json s) :
    After (fun t : CoreSt => t.k < path.length ∧ t.offset < json.length ∧ (t.k + 1 < path.length → CoreInv json t))
      IsErr (coreStep json path s) := by
  unfold coreStep
  split
  · rename_i hb
    have hb' : s.brace = 91 := by simpa using hb
    cases atoi s.cur with
    | none => exact ⟨_, rfl⟩
    | some n =>
      simp only
      split
      · have := zero_inv hj hk (z := ⟨s.offset + 1, s.brace, s.cur⟩) (h.2 hb') (h.2 hb')
        cases hz : forUp json.length (zeroBody json path s.k) (s.offset + 1) ⟨s.offset + 1, s.brace, s.cur⟩ with
        | ret r => rw [hz] at this; exact this
        | done z => rw [hz] at this; exact ⟨hk, this.1, fun hl => ⟨this.1, this.2 hl⟩⟩
      · have := arr_inv (path := path) hj hk (n := n) (a := ⟨0, false, false, 0, s.offset, s.brace, s.cur⟩) rfl (h.2 hb') (i := s.offset)
        cases hz : forUp json.length (arrBody json path s.k n) s.offset ⟨0, false, false, 0, s.offset, s.brace, s.cur⟩ with
        | ret r => rw [hz] at this; exact this
        | done z =>
          rw [hz] at this
          simp only
          split
          · exact ⟨_, rfl⟩
          · rename_i hf
            have := this (by simpa using hf)
            exact ⟨hk, this.1, fun hl => ⟨this.1, this.2 hl⟩⟩
  · rename_i hb
    have := key_inv (path := path) hj (t := ⟨s.k, s.k, false, false, 0, 0, s.offset, s.brace, s.cur, s.keyStart⟩)
      ⟨hk, (fun h => by cases h), h.1, by simpa using hb⟩ (i := s.offset)
    cases hz : forUp json.length (keyBody json path) s.offset ⟨s.k, s.k, false, false, 0, 0, s.offset, s.brace, s.cur, s.keyStart⟩ with
    | ret r => rw [hz] at this; exact this
    | done t =>
      rw [hz] at this
      simp only
      split
      · exact ⟨_, rfl⟩
      · exact ⟨this.lt, this.off, fun _ => ⟨this.off, this.brace⟩⟩

theorem coreLoop_inv (hj : Settled json) (fuel : Nat) {s : CoreSt} (ho : s.offset < json.length)
    (h : s.k < path.length → CoreInv json s) :
    After (fun t : CoreSt => t.offset < json.length) IsErr (coreLoop json path fuel s) := by
  induction fuel generalizing s with
  | zero => exact ho
  | succ n ih =>
    unfold coreLoop
    split
    · rename_i hk
      have := step_inv (path := path) hj hk (h hk)
      cases hz : coreStep json path s with
      | ret r => rw [hz] at this; exact this
      | done t => rw [hz] at this; exact ih this.2.1 (fun hl => this.2.2 hl)
    · exact ho

/-- The result is not a panic, and what was found lies in the text. -/
def InText (json : Bytes) (r : Out Loc) : Prop := r ≠ .panic ∧ ∀ l, r = .ok l → l.start ≤ l.stop ∧ l.stop ≤ json.length

theorem inText_err (e : Err) : InText json (.err e) := ⟨(fun h => by cases h), fun _ h => by cases h⟩

theorem inText_ok {l : Loc} (h1 : l.start ≤ l.stop) (h2 : l.stop ≤ json.length) : InText json (.ok l) :=
  ⟨(fun h => by cases h), fun _ h => by cases h; exact ⟨h1, h2⟩⟩

theorem brace_inv {ks : Int} {off i : Nat} {s : Int × Bool} (hi : off ≤ i) :
    After (fun _ => True) (InText json) (forUp json.length (braceBody json ks off) i s) := by
  refine forUp_inv (P := fun i _ => off ≤ i) ?_ (fun _ _ _ _ => trivial) hi
  intro i s hlt hi
  obtain ⟨c, hc⟩ := getElem_some hlt
  unfold braceBody
  simp only [hc]
  (repeat' split) <;> first | exact Nat.le_succ_of_le hi | exact inText_ok (by simp only; omega) (by simp only; omega)

theorem string_inv {ks : Int} {off i : Nat} (hi : off + 1 ≤ i) :
    After (fun _ => True) (InText json) (forUp json.length (stringBody json ks off) i ()) := by
  refine forUp_inv (P := fun i _ => off + 1 ≤ i) ?_ (fun _ _ _ _ => trivial) hi
  intro i s hlt hi
  obtain ⟨c, hc⟩ := getElem_some hlt
  unfold stringBody
  simp only [hc]
  (repeat' split) <;> first | exact Nat.le_succ_of_le hi | (show off + 1 ≤ max i (i + 1) + 1; omega) | exact inText_ok (by simp only; omega) (by simp only; omega)

theorem plain_inv {ks : Int} {off i : Nat} (hi : off ≤ i) :
    After (fun _ => True) (InText json) (forUp json.length (plainBody json ks off) i ()) := by
  refine forUp_inv (P := fun i _ => off ≤ i) ?_ (fun _ _ _ _ => trivial) hi
  intro i s hlt hi
  obtain ⟨c, hc⟩ := getElem_some hlt
  unfold plainBody
  simp only [hc]
  (repeat' split) <;> first | exact Nat.le_succ_of_le hi | exact inText_err _ | exact inText_ok (by simp only; omega) (by simp only; omega)

theorem extent_inv {ks : Int} {off : Nat} {c : UInt8} : InText json (extent json ks off c) := by
  unfold extent
  simp only
  split
  · rename_i heq
    split at heq
    · have := brace_inv (json := json) (ks := ks) (off := off) (i := off) (s := (0, false)) (Nat.le_refl _)
      cases hz : forUp json.length (braceBody json ks off) off (0, false) with
      | ret r => rw [hz] at this heq; cases heq; exact this
      | done u => rw [hz] at heq; cases heq
    · split at heq
      · have := string_inv (json := json) (ks := ks) (off := off) (i := off + 1) (Nat.le_refl _)
        rw [heq] at this; exact this
      · have := plain_inv (json := json) (ks := ks) (off := off) (i := off) (Nat.le_refl _)
        rw [heq] at this; exact this
  · exact inText_err _

/-- `core` on a text whose last byte needs no next one. -/
theorem core_inv (hj : Settled json) (hp : path ≠ []) : InText json (core json false path) := by
  unfold core
  split
  · exact inText_err _
  · rename_i hlen
    cases path with
    | nil => exact absurd rfl hp
    | cons p ps =>
      simp only
      obtain ⟨j, c, h1, -, h3, -⟩ := hj.skip 0 (by omega)
      rw [h1]; simp only [h3]
      have hjlt := lt_of_getElem? h3
      have := coreLoop_inv (path := p :: ps) hj (p :: ps).length (s := ⟨0, j, c, p, -1⟩) hjlt
        (fun _ => ⟨hjlt, fun hc => hj.lt h3 (by rw [show c = 91 from hc]; decide)⟩)
      cases hz : coreLoop json (p :: ps) (p :: ps).length ⟨0, j, c, p, -1⟩ with
      | ret r =>
        rw [hz] at this
        obtain ⟨e, rfl⟩ := this
        exact inText_err e
      | done t =>
        rw [hz] at this
        simp only
        unfold coreTail
        split
        · exact inText_err _
        · obtain ⟨j', c', h1', -, h3', -⟩ := hj.skip t.offset this
          rw [h1']; simp only [h3', Bool.false_eq_true, if_false]
          exact extent_inv

end

end Jin
