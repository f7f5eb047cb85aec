import Verif.Proof.CoreLoc
/-!
# Proof.Num — decimal texts
-/

namespace Jin
open Spec

theorem digitChar_digit {d : Nat} (h : d < 10) :
    (48 ≤ digitChar d && digitChar d ≤ 57) = true ∧ (digitChar d).toNat - 48 = d := by
  have : ∀ d : Fin 10, (48 ≤ digitChar d && digitChar d ≤ 57) = true ∧ (digitChar d.1).toNat - 48 = d.1 := by
    decide
  exact this ⟨d, h⟩

theorem natDigits_digits (n : Nat) : isDigits (natDigits 10 n) ∧ decimalValue (natDigits 10 n) = n := by
  fun_induction natDigits 10 n with
  | case1 n h =>
    have h' : n < 10 := by omega
    obtain ⟨h1, h2⟩ := digitChar_digit h'
    exact ⟨by simpa [isDigits] using h1, by simpa [decimalValue] using h2⟩
  | case2 n h ih =>
    obtain ⟨h1, h2⟩ := digitChar_digit (Nat.mod_lt n (by decide : 0 < 10))
    obtain ⟨i1, i2⟩ := ih
    refine ⟨?_, ?_⟩
    · simp only [isDigits, Bool.and_eq_true, List.all_append, List.all_cons, List.all_nil] at i1 h1 ⊢
      refine ⟨by simp, i1.2, by simpa using h1⟩
    · rw [decimalValue, List.foldl_append]
      change decimalValue (natDigits 10 (n / 10)) * 10 + _ = n
      rw [i2, h2]; omega

theorem isDigits_head {t : Text} (h : isDigits t) : ∃ c r, t = c :: r ∧ c ≠ 43 ∧ c ≠ 45 := by
  cases t with
  | nil => simp [isDigits] at h
  | cons c r =>
    refine ⟨c, r, rfl, ?_, ?_⟩ <;> rintro rfl <;> simp [isDigits] at h

theorem readInt_itoa {n : Int} (h1 : -9223372036854775808 ≤ n) (h2 : n ≤ 9223372036854775807) :
    readInt (itoa n) = some n := by
  obtain ⟨d1, d2⟩ := natDigits_digits n.natAbs
  unfold itoa
  by_cases hn : n < 0
  · rw [if_pos hn]
    simp only [readInt, d1, if_true, d2]
    rw [show -((n.natAbs : Nat) : Int) = n by omega]
    simp [h1, h2]
  · rw [if_neg hn]
    obtain ⟨c, r, e, e1, e2⟩ := isDigits_head d1
    have : readInt (natDigits 10 n.natAbs) = (if isDigits (natDigits 10 n.natAbs) then some (decimalValue (natDigits 10 n.natAbs) : Int) else none).filter fun n => -9223372036854775808 ≤ n ∧ n ≤ 9223372036854775807 := by
      rw [e]
      simp only [readInt]
      split <;> simp_all
    rw [this, if_pos d1, d2, show ((n.natAbs : Nat) : Int) = n by omega]
    simp [h1, h2]

theorem digit_tok {c : UInt8} (h : 48 ≤ c ∧ c ≤ 57) : tokByte c := by
  have key : ∀ x : UInt8, ¬ (48 ≤ x ∧ x ≤ 57) → c ≠ x := by rintro x hx rfl; exact hx h
  simp only [tokByte, isWs, Bool.not_eq_true', Bool.or_eq_false_iff, beq_eq_false_iff_ne, and_assoc]
  refine ⟨?_, ?_, ?_, ?_, ?_, ?_, ?_, ?_, ?_, ?_, ?_, ?_⟩ <;> exact key _ (by decide)

theorem isDigits_tok {t : Text} (h : isDigits t) : t.all tokByte := by
  simp only [isDigits, Bool.and_eq_true, List.all_eq_true, decide_eq_true_eq] at h ⊢
  intro c hc; exact digit_tok (h.2 c hc)

theorem itoa_wf (n : Int) : (Json.lit (itoa n)).wf := by
  obtain ⟨d1, -⟩ := natDigits_digits n.natAbs
  have d3 := isDigits_tok d1
  obtain ⟨c, r, e, -, -⟩ := isDigits_head d1
  simp only [Json.wf]
  unfold itoa
  split
  · simp only [List.isEmpty_cons, List.all_cons, d3]; decide
  · rw [d3, e]; rfl

/-- A natural number is its own path entry. -/
theorem readIndex_itoa {n : Nat} (h : (n : Int) ≤ 9223372036854775807) : readIndex (itoa n) = some n := by
  unfold readIndex
  rw [readInt_itoa (by omega) h]

end Jin
