import Verif.Proof.Num
import Verif.Model.Utils
/-!
# Proof.Format — what `formatType` writes
-/

namespace Jin
open Spec

theorem isDigit_iff {c : UInt8} : isDigit c = true ↔ 48 ≤ c ∧ c ≤ 57 := by simp [isDigit]

theorem digitsVal_digits : ∀ {t : Bytes} {a n : Nat}, digitsVal a t = some n → ∀ c ∈ t, 48 ≤ c ∧ c ≤ 57
  | [], _, _, _ => by simp
  | c :: t, a, n, h => by
    rw [digitsVal] at h
    by_cases hc : isDigit c
    · rw [if_pos hc] at h
      intro x hx
      rcases List.mem_cons.1 hx with rfl | hx
      · exact isDigit_iff.1 hc
      · exact digitsVal_digits h x hx
    · simp [hc] at h

theorem parseNat_tok {t : Bytes} {n : Nat} (h : parseNat t = some n) : t ≠ [] ∧ t.all tokByte := by
  cases t with
  | nil => simp [parseNat] at h
  | cons c t =>
    refine ⟨by simp, ?_⟩
    rw [List.all_eq_true]
    intro x hx
    exact digit_tok (digitsVal_digits (t := c :: t) h x hx)

theorem parseIntBits_tok {b : Nat} {t : Bytes} {n : Int} (h : parseIntBits b t = some n) : t ≠ [] ∧ t.all tokByte := by
  have tok : ∀ t, parseNat t ≠ none → t ≠ [] ∧ t.all tokByte := by
    intro t ht
    obtain ⟨n, hn⟩ := Option.ne_none_iff_exists'.1 ht
    exact parseNat_tok hn
  unfold parseIntBits at h
  simp only at h
  split at h
  · exact absurd h (by simp)
  · rename_i v hv
    split at hv
    · rename_i ds
      have := tok ds (by rintro hn; simp [hn] at hv)
      have := this.2
      refine ⟨by simp, ?_⟩
      rw [List.all_cons, this]; decide
    · rename_i ds
      have := tok ds (by rintro hn; simp [hn] at hv)
      have := this.2
      refine ⟨by simp, ?_⟩
      rw [List.all_cons, this]; decide
    · exact tok _ (by rintro hn; simp [hn] at hv)

theorem lit_wf {t : Text} : (Json.lit t).wf ↔ t ≠ [] ∧ t.all tokByte := by
  simp [Json.wf]

/-- What a string argument must look like to survive `formatType` as that string:
valid string content, not wrapped in brackets or braces. -/
def PlainText (s : Text) : Prop :=
  strOk s ∧ ¬ (s.head? = some 91 ∧ s.getLast? = some 93) ∧ ¬ (s.head? = some 123 ∧ s.getLast? = some 125)

theorem quote_eq (s : Text) : quote s = (Json.str s).render := by
  rw [render_str]; rfl

/-- `formatType` writes a value whose content is the given string. -/
theorem formatType_value {isFloat : Bytes → Bool} (hf : ∀ v, isFloat v = true → (Json.lit v).wf) {s : Text}
    (hs : PlainText s) : ∃ x : Json, x.wf ∧ x.isContainer = false ∧ formatType isFloat s = x.render ∧ x.content = s := by
  obtain ⟨h1, h2, h3⟩ := hs
  have q : ∃ x : Json, x.wf ∧ x.isContainer = false ∧ quote s = x.render ∧ x.content = s :=
    ⟨.str s, h1, rfl, quote_eq s, rfl⟩
  have l : (Json.lit s).wf → ∃ x : Json, x.wf ∧ x.isContainer = false ∧ s = x.render ∧ x.content = s :=
    fun h => ⟨.lit s, h, rfl, (render_lit s).symm, render_lit s⟩
  cases s with
  | nil => exact ⟨.str [], rfl, rfl, rfl, rfl⟩
  | cons c r =>
    simp only [formatType]
    split
    · rename_i hb
      refine l ?_
      simp only [isBool, Bool.or_eq_true, beq_iff_eq] at hb
      rcases hb with hb | hb <;> rw [hb] <;> decide
    · split
      · rename_i hi
        split
        · exact q
        · refine l ?_
          obtain ⟨n, hn⟩ := Option.isSome_iff_exists.1 hi
          exact lit_wf.2 (parseIntBits_tok hn)
      · split
        · rename_i hfl; exact l (hf _ hfl)
        · split
          · rename_i hn
            refine l ?_
            rw [beq_iff_eq] at hn; rw [hn]; decide
          · split
            · rename_i hq
              simp only [Bool.and_eq_true, beq_iff_eq] at hq
              rw [hq.1] at h1
              simp [strOk] at h1
            · split
              · rename_i hq
                simp only [Bool.and_eq_true, beq_iff_eq] at hq
                exact absurd ⟨by simp [hq.1], hq.2⟩ h2
              · split
                · rename_i hq
                  simp only [Bool.and_eq_true, beq_iff_eq] at hq
                  exact absurd ⟨by simp [hq.1], hq.2⟩ h3
                · exact q

end Jin
