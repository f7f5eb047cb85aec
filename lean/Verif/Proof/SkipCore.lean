import Verif.Proof.Skip
/-!
# Proof.SkipCore — the scanning loops of `core` pass over values
-/

namespace Jin
open Spec

/-- A byte of a token or whitespace is not in the `chars` table. -/
theorem isJSONChar_tok {a b : Bool} {c : UInt8} (h : tokByte c ∨ isWs c) : isJSONChar a b c = false := by
  have : c ≠ 34 ∧ c ≠ 44 ∧ c ≠ 58 ∧ c ≠ 91 ∧ c ≠ 93 ∧ c ≠ 123 ∧ c ≠ 125 := by
    rcases h with h | h
    · obtain ⟨_, h1, _, h2⟩ := tokByte_ne h; exact ⟨h1, h2⟩
    · obtain ⟨h1, _, h2⟩ := isWs_ne h; exact ⟨h1, h2⟩
  obtain ⟨h1, h2, h3, h4, h5, h6, h7⟩ := this
  simp [isJSONChar, h1, h2, h3, h4, h5, h6, h7]

theorem quoteScan_real {json : Bytes} {i : Nat} (h : tb json i + 1 < i) (h2 : tb json i % 2 = 0) :
    quoteScan json i i = .real := by rw [quoteScan_eq (by omega), if_pos h2]

theorem quoteScan_escaped {json : Bytes} {i : Nat} (h : tb json i + 1 < i) (h2 : tb json i % 2 = 1) :
    quoteScan json i i = .escaped := by rw [quoteScan_eq (by omega), if_neg (by omega)]

section arr
variable {json : Bytes} {path : List Bytes} {k : Nat} {ai : Int}

theorem arr_skips (a : ArrSt) (hq : a.inQuote = false) (hf : a.found = false) (hl : 1 ≤ a.level) :
    Skips json (arrBody json path k ai) (fun d s => s = { a with level := a.level + d }) where
  tok := by
    rintro i d s c hc ht rfl
    exact ⟨_, by simp [arrBody, hc, isJSONChar_tok ht], rfl⟩
  sep := by
    rintro i d s c hc ht rfl
    refine ⟨_, ?_, rfl⟩
    have : a.level + (d + 1) ≠ 1 := by omega
    rcases ht with rfl | rfl <;> simp [arrBody, hc, isJSONChar, hq, hf] <;> omega
  opn := by
    rintro i d s c hc ht rfl
    refine ⟨_, ?_, rfl⟩
    rcases ht with rfl | rfl <;> simp [arrBody, hc, isJSONChar, hq, hf] <;> omega
  cls := by
    rintro i d s c hc ht rfl
    refine ⟨_, ?_, rfl⟩
    have : ¬ a.level + (d + 1) < 2 := by omega
    rcases ht with rfl | rfl <;> simp [arrBody, hc, isJSONChar, hq, hf, this] <;> omega
  str := by
    rintro i d s raw hseg hok hp rfl
    refine str_of_scan (F := fun s => s = { a with level := a.level + d })
      (G := fun s => s = { a with level := a.level + d, inQuote := true }) ?_ ?_ ?_ ?_ hseg hok hp rfl
    · rintro i s hc hp rfl
      exact ⟨_, by simp [arrBody, hc, isJSONChar, hp.scan, hq], rfl⟩
    · rintro i s c hc hne rfl
      refine ⟨_, ?_, rfl⟩
      by_cases h : isJSONChar true false c <;> simp [arrBody, hc, h, hne]
    · rintro i s hc h1 h2 rfl
      exact ⟨_, by simp [arrBody, hc, isJSONChar, quoteScan_escaped h1 h2], rfl⟩
    · rintro i s hc h1 h2 rfl
      exact ⟨{ a with level := a.level + d }, by simp [arrBody, hc, isJSONChar, quoteScan_real h1 h2, hq], rfl⟩

end arr

section jump
variable {json : Bytes} {k : Nat} {cur : Bytes}

theorem jump_skips : Skips json (jumpBody json k cur) (fun d s => s = ⟨k + 1 + d, false, none⟩) where
  tok := by
    rintro i d s c hc ht rfl
    exact ⟨_, by simp [jumpBody, hc, isJSONChar_tok ht], rfl⟩
  sep := by
    rintro i d s c hc ht rfl
    refine ⟨_, ?_, rfl⟩
    rcases ht with rfl | rfl <;> simp [jumpBody, hc, isJSONChar]
  opn := by
    rintro i d s c hc ht rfl
    refine ⟨_, ?_, rfl⟩
    rcases ht with rfl | rfl <;> simp [jumpBody, hc, isJSONChar] <;> omega
  cls := by
    rintro i d s c hc ht rfl
    refine ⟨_, ?_, rfl⟩
    have : ¬ k + 1 + (d + 1) < k + 1 := by omega
    rcases ht with rfl | rfl <;> simp [jumpBody, hc, isJSONChar, this] <;> omega
  str := by
    rintro i d s raw hseg hok hp rfl
    refine str_of_scan (F := fun s : JumpSt => s = ⟨k + 1 + d, false, none⟩)
      (G := fun s : JumpSt => s = ⟨k + 1 + d, true, none⟩) ?_ ?_ ?_ ?_ hseg hok hp rfl
    · rintro i s hc hp rfl
      exact ⟨_, by simp [jumpBody, hc, isJSONChar, hp.scan], rfl⟩
    · rintro i s c hc hne rfl
      refine ⟨_, ?_, rfl⟩
      by_cases h : isJSONChar true false c <;> simp [jumpBody, hc, h, hne]
    · rintro i s hc h1 h2 rfl
      exact ⟨_, by simp [jumpBody, hc, isJSONChar, quoteScan_escaped h1 h2], rfl⟩
    · rintro i s hc h1 h2 rfl
      exact ⟨_, by simp [jumpBody, hc, isJSONChar, quoteScan_real h1 h2], rfl⟩

end jump

section brace
variable {json : Bytes} {ks : Int} {off : Nat}

/-- `braceBody` inside the brackets (level at least 1). -/
theorem brace_skips : Skips json (braceBody json ks off) (fun d s => s = ((d : Int) + 1, false)) where
  tok := by
    rintro i d s c hc ht rfl
    exact ⟨_, by simp [braceBody, hc, isJSONChar_tok ht], rfl⟩
  sep := by
    rintro i d s c hc ht rfl
    refine ⟨_, ?_, rfl⟩
    rcases ht with rfl | rfl <;> simp [braceBody, hc, isJSONChar]
  opn := by
    rintro i d s c hc ht rfl
    refine ⟨_, ?_, rfl⟩
    rcases ht with rfl | rfl <;> simp [braceBody, hc, isJSONChar]
  cls := by
    rintro i d s c hc ht rfl
    refine ⟨_, ?_, rfl⟩
    have : ¬ ((d : Int) + 1 + 1 = 1) := by omega
    rcases ht with rfl | rfl <;> simp [braceBody, hc, isJSONChar, this]
  str := by
    rintro i d s raw hseg hok hp rfl
    refine str_of_scan (F := fun s => s = ((d : Int) + 1, false))
      (G := fun s => s = ((d : Int) + 1, true)) ?_ ?_ ?_ ?_ hseg hok hp rfl
    · rintro i s hc hp rfl
      exact ⟨_, by simp [braceBody, hc, isJSONChar, hp.scan], rfl⟩
    · rintro i s c hc hne rfl
      refine ⟨_, ?_, rfl⟩
      by_cases h : isJSONChar true true c <;> simp [braceBody, hc, h, hne]
    · rintro i s hc h1 h2 rfl
      exact ⟨_, by simp [braceBody, hc, isJSONChar, quoteScan_escaped h1 h2], rfl⟩
    · rintro i s hc h1 h2 rfl
      exact ⟨_, by simp [braceBody, hc, isJSONChar, quoteScan_real h1 h2], rfl⟩

end brace

end Jin
