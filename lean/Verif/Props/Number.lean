import Verif.Proof.ParseFloat
import Verif.Props.Rfc
import Verif.Props.Types
import Verif.Props.Text
/-!
# Props.Number — numbers, with what `strconv.ParseFloat` accepts (C39, C60, C114)
-/

namespace Jin
open Spec

/-- **C114** What the package takes for a floating point number, among the numbers of RFC 8259: exactly those that are not
too large for 64 bits.  The side condition is on texts with exponents of six digits in more than 9000 bytes only. -/
theorem C114_numbers (n : NumText) (hn : n.wf) (hs : n.expo < 100000 ∨ n.text.length ≤ 9000) : parseFloatOk n.text = true ↔ ¬ n.tooBig := by
  rw [parse_exact n hn, Bool.not_eq_true', ← outOfRange_iff n hn hs]
  simp

/-- Every number of RFC 8259 has these parts. -/
theorem C114_parts {t : Text} (h : rnumber t = true) : ∃ n : NumText, n.wf ∧ n.text = t := rnumber_parts h

theorem int_digits {n : NumText} (hn : n.wf) (h : isDigits n.unsigned = true) : n.frac = none ∧ n.exp = none := by
  have hall := digits_all.1 (.inr h)
  constructor
  · cases ho : n.frac with
    | none => rfl
    | some f =>
      exfalso
      have := hall 0x2E (by unfold Spec.NumText.unsigned; simp [ho])
      exact absurd this (by decide)
  · cases ho : n.exp with
    | none => rfl
    | some x =>
      exfalso
      have := hall x.e (by unfold Spec.NumText.unsigned expText; simp [ho, ExpText.text])
      rcases (hn.2.2 x ho).1 with e | e <;> rw [e] at this <;> exact absurd this (by decide)

/-- 64-bit integers are not too large. -/
theorem int_small {n : NumText} (hn : n.wf) {v : Int} (h : readInt n.text = some v) : ¬ n.tooBig := by
  obtain ⟨-, -, c, r, hu, hc⟩ := unsigned_body n hn
  obtain ⟨-, -, -, -, h43, h45, -⟩ := digit_facts hc
  have key : isDigits n.unsigned = true ∧ decimalValue n.unsigned ≤ 9223372036854775808 := by
    rw [text_unsigned] at h
    unfold readInt at h
    cases hneg : n.neg with
    | true =>
      rw [hneg] at h
      simp only [if_true, List.cons_append, List.nil_append] at h
      split at h
      · rename_i hd
        refine ⟨hd, ?_⟩
        simp only [Option.filter_some] at h
        split at h
        · rename_i hr; have := (of_decide_eq_true hr).1; omega
        · cases h
      · cases h
    | false =>
      rw [hneg, hu] at h
      simp only [Bool.false_eq_true, if_false, List.nil_append] at h
      split at h
      · rename_i e'; cases e'; exact absurd rfl h43
      · rename_i e'; cases e'; exact absurd rfl h45
      · rw [← hu] at h
        split at h
        · rename_i hd
          refine ⟨hd, ?_⟩
          simp only [Option.filter_some] at h
          split at h
          · rename_i hr; have := (of_decide_eq_true hr).2; omega
          · cases h
        · cases h
  obtain ⟨h1, h2⟩ := int_digits hn key.1
  have hd : n.digits = decimalValue n.unsigned := by
    unfold NumText.digits NumText.fraction Spec.NumText.unsigned expText
    rw [h1, h2]
    simp
  have ht : n.tens = 0 ∧ n.tenths = 0 := by
    unfold NumText.tens NumText.tenths NumText.fraction NumText.expNeg NumText.expo
    rw [h1, h2]
    simp
  unfold NumText.tooBig
  rw [ht.1, ht.2, hd, Nat.pow_zero, Nat.mul_one, Nat.mul_one, Nat.not_le]
  exact Nat.lt_of_le_of_lt key.2 (by decide +kernel)

/-- Names are not numbers. -/
theorem num_not_name {n : NumText} (hn : n.wf) : n.text ≠ bTrue ∧ n.text ≠ bFalse ∧ n.text ≠ bNull := by
  obtain ⟨-, -, c, r, hu, hc⟩ := unsigned_body n hn
  rw [text_unsigned, hu]
  have : ∀ d : UInt8, isNumDigit d = false → d ≠ c := by rintro d hd rfl; rw [hd] at hc; cases hc
  cases n.neg <;> refine ⟨?_, ?_, ?_⟩ <;> intro e <;> cases e <;> exact absurd hc (by decide)

/-- **C39** for numbers: a number of RFC 8259 is called a number, unless it is too large for 64 bits; then it is called a
string. -/
theorem C39_number {d : Doc} {p : List Text} {n : NumText} (hd : d.wf) (h : d.get? p = some (.lit n.text)) (hp : p ≠ [] ∨ d.lead = [] ∧ d.trail = [])
    (hn : n.wf) (hs : n.expo < 100000 ∨ n.text.length ≤ 9000) [Decidable n.tooBig] :
    GetType parseFloatOk d.render p = .ok (if n.tooBig then .string else .number) := by
  have ht : typeText d p n.text = n.text := by
    unfold typeText
    split
    · rename_i e
      subst e
      rcases hp with hp | ⟨h1, h2⟩
      · exact absurd rfl hp
      · have : d.root = .lit n.text := by simpa [Doc.get?, Json.get?] using h
        unfold Doc.render
        rw [h1, h2, this]
        simp [Json.render]
    · rfl
  rw [getType_ok hd h]
  obtain ⟨n1, n2, n3⟩ := num_not_name hn
  simp only [ht, n1, n2, n3, or_self, if_false]
  congr 1
  have hf := C114_numbers n hn hs
  by_cases hb : n.tooBig
  · rw [if_pos hb, if_neg]
    rintro (hi | hi)
    · obtain ⟨v, hv⟩ := Option.isSome_iff_exists.1 hi
      exact int_small hn (by rw [← atoi_eq]; exact hv) hb
    · exact hf.1 hi hb
  · rw [if_neg hb, if_pos (.inr (hf.2 hb))]

/-- The same of the text of `GetType`, with any library whose `ParseFloat` accepts what `parseFloatOk` says. -/
theorem C39_number_text (fl : FloatLib UInt64) (hfl : ∀ s, (fl.parse s).isSome = parseFloatOk s) {d : Doc} {p : List Text} {n : NumText} (hd : d.wf)
    (h : d.get? p = some (.lit n.text)) (hp : p ≠ [] ∨ d.lead = [] ∧ d.trail = []) (hn : n.wf) (hs : n.expo < 100000 ∨ n.text.length ≤ 9000) :
    (¬ n.tooBig → Go.Call fl (go% GetType) [.bytes d.render] p (.ok [.bytes (str "number"), .nil])) ∧
    (n.tooBig → Go.Call fl (go% GetType) [.bytes d.render] p (.ok [.bytes (str "string"), .nil])) := by
  have hc := Go.text_GetType fl d.render p
  rw [show (fun s => (fl.parse s).isSome) = parseFloatOk from funext hfl] at hc
  have e1 : str "number" = Go.typeName .number := by decide +kernel
  have e2 : str "string" = Go.typeName .string := by decide +kernel
  constructor
  · intro hb
    haveI := Decidable.isFalse hb
    rw [C39_number hd h hp hn hs, if_neg hb] at hc
    rw [e1]
    exact hc
  · intro hb
    haveI := Decidable.isTrue hb
    rw [C39_number hd h hp hn hs, if_pos hb] at hc
    rw [e2]
    exact hc

/-- **C39 does not hold of large numbers**: in `[1e400]` the element is called a string. -/
theorem C39_big_fails : (⟨[], .arr [] [⟨[], .lit (str "1e400"), []⟩], []⟩ : Doc).wf ∧ rnumber (str "1e400") ∧
    GetType parseFloatOk (⟨[], .arr [] [⟨[], .lit (str "1e400"), []⟩], []⟩ : Doc).render [str "0"] = .ok .string :=
  ⟨by decide +kernel, by decide +kernel, by decide +kernel⟩

/-- The hypotheses of `C39_number`, for `-12.5e3` and for `1e400`, which is too large. -/
example : (⟨true, str "12", some (str "5"), some ⟨0x65, [], str "3"⟩⟩ : NumText).text = str "-12.5e3" ∧
    (⟨[], .arr [] [⟨[], .lit (str "-12.5e3"), []⟩], []⟩ : Doc).wf ∧ parseFloatOk (str "-12.5e3") = true ∧ parseFloatOk (str "1e400") = false := by decide +kernel

example : (⟨true, str "12", some (str "5"), some ⟨0x65, [], str "3"⟩⟩ : NumText).wf ∧ ¬ (⟨true, str "12", some (str "5"), some ⟨0x65, [], str "3"⟩⟩ : NumText).tooBig := by
  refine ⟨⟨by decide +kernel, ?_, ?_⟩, by unfold NumText.tooBig; decide +kernel⟩
  · intro f h; cases h; decide +kernel
  · intro f h; cases h; exact ⟨.inl rfl, .inl rfl, by decide +kernel⟩

/-- Bytes of a numeral of Go behind its sign: digits of base 16, point, underscore, sign of an exponent, `x`, `p`. -/
def numeralByte (c : UInt8) : Prop :=
  isNumDigit c = true ∨ (97 ≤ c ∧ c ≤ 102) ∨ (65 ≤ c ∧ c ≤ 70) ∨ c ∈ [0x2E, 0x5F, 0x2B, 0x2D, 0x78, 0x58, 0x70, 0x50]

theorem lower_byte (c : UInt8) : (97 ≤ lowerByte c → lowerByte c ≤ 102 → 97 ≤ c ∧ c ≤ 102 ∨ 65 ≤ c ∧ c ≤ 70) ∧
    (lowerByte c = 112 → c = 112 ∨ c = 80) ∧ (lowerByte c = 101 → c = 101 ∨ c = 69) ∧ (lowerByte c = 120 → c = 120 ∨ c = 88) := by
  have : ∀ n : Fin 256, (97 ≤ lowerByte (UInt8.ofNat n) → lowerByte (UInt8.ofNat n) ≤ 102 → 97 ≤ UInt8.ofNat n ∧ UInt8.ofNat n ≤ 102 ∨ 65 ≤ UInt8.ofNat n ∧ UInt8.ofNat n ≤ 70) ∧
      (lowerByte (UInt8.ofNat n) = 112 → UInt8.ofNat n = 112 ∨ UInt8.ofNat n = 80) ∧ (lowerByte (UInt8.ofNat n) = 101 → UInt8.ofNat n = 101 ∨ UInt8.ofNat n = 69) ∧
      (lowerByte (UInt8.ofNat n) = 120 → UInt8.ofNat n = 120 ∨ UInt8.ofNat n = 88) := by decide +kernel
  have h := this ⟨c.toNat, UInt8.toNat_lt c⟩
  simpa using h

theorem digitOf_byte {hex : Bool} {c : UInt8} {d : Nat} (h : digitOf hex c = some d) : numeralByte c ∧ c ≠ 46 := by
  unfold digitOf at h
  split at h
  · rename_i hd
    exact ⟨.inl hd, by rintro rfl; exact absurd hd (by decide)⟩
  · split at h
    · rename_i hd
      simp only [Bool.and_eq_true, decide_eq_true_eq] at hd
      have := (lower_byte c).1 hd.1.2 hd.2
      refine ⟨.inr (this.imp id .inl), ?_⟩
      rintro rfl
      exact absurd this (by decide)
    · cases h

/-- What the mantissa takes of a text. -/
theorem readMant_takes {hex : Bool} : ∀ (s : Bytes) (dot any : Bool) (v f : Nat), ∃ a, s = a ++ (readMant hex dot v f any s).rest ∧
    (∀ c ∈ a, numeralByte c) ∧ a.count 46 ≤ (if dot then 0 else 1)
  | [], dot, any, v, f => ⟨[], by simp [readMant], by simp, by simp⟩
  | c :: cs, dot, any, v, f => by
    unfold readMant
    split
    · rename_i h
      rw [beq_iff_eq] at h
      obtain ⟨a, h1, h2, h3⟩ := readMant_takes (hex := hex) cs dot any v f
      refine ⟨c :: a, by rw [List.cons_append, ← h1], ?_, ?_⟩
      · intro x hx
        rcases List.mem_cons.1 hx with rfl | hx
        · rw [h]; exact .inr (.inr (.inr (by decide)))
        · exact h2 x hx
      · rw [h, List.count_cons_of_ne (by decide)]; exact h3
    · split
      · rename_i h
        rw [beq_iff_eq] at h
        cases dot with
        | true => exact ⟨[], by simp, by simp, by simp⟩
        | false =>
          obtain ⟨a, h1, h2, h3⟩ := readMant_takes (hex := hex) cs true any v f
          simp only [Bool.false_eq_true, if_false]
          refine ⟨c :: a, by rw [List.cons_append, ← h1], ?_, ?_⟩
          · intro x hx
            rcases List.mem_cons.1 hx with rfl | hx
            · rw [h]; exact .inr (.inr (.inr (by decide)))
            · exact h2 x hx
          · rw [h, List.count_cons_self]
            simp only [if_true] at h3
            omega
      · split
        · rename_i d hd
          obtain ⟨a, h1, h2, h3⟩ := readMant_takes (hex := hex) cs dot true (v * (if hex then 16 else 10) + d) (if dot then f + 1 else f)
          refine ⟨c :: a, by rw [List.cons_append, ← h1], ?_, ?_⟩
          · intro x hx
            rcases List.mem_cons.1 hx with rfl | hx
            · exact (digitOf_byte hd).1
            · exact h2 x hx
          · rw [List.count_cons_of_ne (digitOf_byte hd).2]; exact h3
        · exact ⟨[], by simp, by simp, by simp⟩

theorem readExpo_bytes : ∀ {s : Bytes} {e x : Nat}, readExpo e s = some x → (∀ c ∈ s, numeralByte c) ∧ 46 ∉ s
  | [], _, _, _ => by simp
  | c :: cs, e, x, h => by
    unfold readExpo at h
    split at h
    · rename_i hc
      rw [beq_iff_eq] at hc
      obtain ⟨h1, h2⟩ := readExpo_bytes h
      refine ⟨?_, by simp [h2, hc]⟩
      intro y hy
      rcases List.mem_cons.1 hy with rfl | hy
      · rw [hc]; exact .inr (.inr (.inr (by decide)))
      · exact h1 y hy
    · split at h
      · rename_i hc
        obtain ⟨h1, h2⟩ := readExpo_bytes h
        refine ⟨?_, ?_⟩
        · intro y hy
          rcases List.mem_cons.1 hy with rfl | hy
          · exact .inl hc
          · exact h1 y hy
        · intro hm
          rcases List.mem_cons.1 hm with rfl | hm
          · exact absurd hc (by decide)
          · exact h2 hm
      · cases h

theorem readExp_bytes {hex : Bool} {s : Bytes} {r : Bool × Nat} (h : readExp hex s = some r) : (∀ c ∈ s, numeralByte c) ∧ 46 ∉ s := by
  cases s with
  | nil => simp
  | cons c cs =>
    unfold readExp at h
    by_cases hc : (lowerByte c == (if hex then 112 else 101)) = true
    · rw [if_pos hc] at h
      have hb : numeralByte c ∧ c ≠ 46 := by
        rw [beq_iff_eq] at hc
        cases hex with
        | true =>
          rcases (lower_byte c).2.1 hc with rfl | rfl
          · exact ⟨.inr (.inr (.inr (by decide))), by decide⟩
          · exact ⟨.inr (.inr (.inr (by decide))), by decide⟩
        | false =>
          rcases (lower_byte c).2.2.1 hc with rfl | rfl
          · exact ⟨.inr (.inl (by decide)), by decide⟩
          · exact ⟨.inr (.inr (.inl (by decide))), by decide⟩
      have hs : cs = (expSign cs).2 ∨ ∃ d, cs = d :: (expSign cs).2 ∧ (d = 43 ∨ d = 45) := by
        unfold expSign
        split
        · exact .inr ⟨_, rfl, .inl rfl⟩
        · exact .inr ⟨_, rfl, .inr rfl⟩
        · exact .inl rfl
      have ht : (∀ c ∈ (expSign cs).2, numeralByte c) ∧ 46 ∉ (expSign cs).2 := by
        split at h
        · cases h
        · rename_i d ds e
          split at h
          · rw [e]
            cases hr : readExpo 0 (d :: ds) with
            | none => rw [hr] at h; cases h
            | some x => exact readExpo_bytes hr
          · cases h
      have hcs : (∀ c ∈ cs, numeralByte c) ∧ 46 ∉ cs := by
        rcases hs with hs | ⟨d, hs, hd⟩
        · rw [hs]; exact ht
        · rw [hs]
          constructor
          · intro y hy
            rcases List.mem_cons.1 hy with rfl | hy
            · rcases hd with rfl | rfl <;> exact .inr (.inr (.inr (by decide)))
            · exact ht.1 y hy
          · intro hm
            rcases List.mem_cons.1 hm with e | hm
            · rcases hd with rfl | rfl <;> cases e
            · exact ht.2 hm
      constructor
      · intro y hy
        rcases List.mem_cons.1 hy with rfl | hy
        · exact hb.1
        · exact hcs.1 y hy
      · intro hm
        rcases List.mem_cons.1 hm with e | hm
        · exact hb.2 e.symm
        · exact hcs.2 hm
    · rw [if_neg hc] at h; cases h

theorem floatBody_bytes {hex : Bool} {s : Bytes} (h : floatBody hex s = true) : (∀ c ∈ s, numeralByte c) ∧ s.count 46 ≤ 1 := by
  unfold floatBody at h
  simp only [Bool.and_eq_true] at h
  obtain ⟨-, h⟩ := h
  obtain ⟨a, h1, h2, h3⟩ := readMant_takes (hex := hex) s false false 0 0
  cases hr : readExp hex (readMant hex false 0 0 false s).rest with
  | none => rw [hr] at h; cases h
  | some r =>
    obtain ⟨h4, h5⟩ := readExp_bytes hr
    rw [h1]
    constructor
    · intro c hc
      rcases List.mem_append.1 hc with hc | hc
      · exact h2 c hc
      · exact h4 c hc
    · rw [List.count_append, List.count_eq_zero_of_not_mem h5]
      simpa using h3

theorem floatUnsigned_bytes {s : Bytes} (h : floatUnsigned s = true) : s.map lowerByte = str "inf" ∨ s.map lowerByte = str "infinity" ∨
    (∀ c ∈ s, numeralByte c) ∧ s.count 46 ≤ 1 := by
  unfold floatUnsigned at h
  rw [Bool.or_eq_true, Bool.or_eq_true] at h
  rcases h with (h | h) | h
  · exact .inl (by rw [show str "inf" = [105, 110, 102] by decide +kernel]; simpa [sameWord] using h)
  · exact .inr (.inl (by rw [show str "infinity" = [105, 110, 102, 105, 110, 105, 116, 121] by decide +kernel]; simpa [sameWord] using h))
  · right; right
    split at h
    · rename_i x d r
      split at h
      · rename_i hx
        rw [beq_iff_eq] at hx
        obtain ⟨h1, h2⟩ := floatBody_bytes h
        have hb := (lower_byte x).2.2.2 hx
        constructor
        · intro c hc
          rcases List.mem_cons.1 hc with rfl | hc
          · exact .inl (by decide)
          · rcases List.mem_cons.1 hc with rfl | hc
            · rcases hb with rfl | rfl <;> exact .inr (.inr (.inr (by decide)))
            · exact h1 c hc
        · rw [List.count_cons_of_ne (by decide), List.count_cons_of_ne (by rcases hb with rfl | rfl <;> decide)]
          exact h2
      · exact floatBody_bytes h
    · exact floatBody_bytes h

/-- **C114** What else `ParseFloat` accepts: behind an optional sign one of its words, or bytes of a numeral with one point
at most. -/
theorem C114_alphabet {s : Bytes} (h : parseFloatOk s = true) : s.map lowerByte = str "nan" ∨
    ∃ sign r, s = sign ++ r ∧ sign ∈ [[], [0x2B], [0x2D]] ∧
      (r.map lowerByte = str "inf" ∨ r.map lowerByte = str "infinity" ∨ (∀ c ∈ r, numeralByte c) ∧ r.count 0x2E ≤ 1) := by
  unfold parseFloatOk at h
  split at h
  · rename_i r; exact .inr ⟨[43], r, rfl, by decide, floatUnsigned_bytes h⟩
  · rename_i r; exact .inr ⟨[45], r, rfl, by decide, floatUnsigned_bytes h⟩
  · rw [Bool.or_eq_true] at h
    rcases h with h | h
    · exact .inr ⟨[], s, rfl, by decide, floatUnsigned_bytes h⟩
    · exact .inl (by rw [show str "nan" = [110, 97, 110] by decide +kernel]; simpa [sameWord] using h)

/-- **C114** A plus sign and a minus sign make no difference to what is accepted, and a text without sign may get one unless
it is `nan`. -/
theorem C114_sign (r : Bytes) : parseFloatOk (0x2B :: r) = parseFloatOk (0x2D :: r) ∧
    (r.head? ≠ some 0x2B → r.head? ≠ some 0x2D → r.map lowerByte ≠ str "nan" → parseFloatOk (0x2B :: r) = parseFloatOk r) := by
  refine ⟨rfl, fun h1 h2 h3 => ?_⟩
  show floatUnsigned r = _
  unfold parseFloatOk
  split
  · exact absurd rfl h1
  · exact absurd rfl h2
  · have : sameWord r [110, 97, 110] = false := by
      unfold sameWord
      rw [beq_eq_false_iff_ne]
      rw [show str "nan" = [110, 97, 110] by decide +kernel] at h3
      exact h3
    rw [this, Bool.or_false]

/-- Both on texts that are no numbers of RFC 8259. -/
example : parseFloatOk (str "+0x1.8p-3") = true ∧ parseFloatOk (str "0x1.8p-3") = true ∧ parseFloatOk (str "1.2.3") = false ∧ parseFloatOk (str "0xgp1") = false ∧
    parseFloatOk (str "+1_000.5") = true ∧ parseFloatOk (str "+nan") = false := by decide +kernel

/-! ### C60 -/

/-- What `ParseFloat` accepts is one of its words, or begins with a digit, a sign or a point. -/
theorem parse_head {s : Bytes} (h : parseFloatOk s = true) :
    (s.map lowerByte = str "inf" ∨ s.map lowerByte = str "infinity" ∨ s.map lowerByte = str "nan") ∨
    ∃ c r, s = c :: r ∧ (isNumDigit c = true ∨ c = 0x2B ∨ c = 0x2D ∨ c = 0x2E) := by
  cases s with
  | nil => exact absurd h (by decide)
  | cons c r =>
    by_cases hc : isNumDigit c = true ∨ c = 0x2B ∨ c = 0x2D ∨ c = 0x2E
    · exact .inr ⟨c, r, rfl, hc⟩
    · refine .inl ?_
      have e1 : str "inf" = [105, 110, 102] := by decide +kernel
      have e2 : str "infinity" = [105, 110, 102, 105, 110, 105, 116, 121] := by decide +kernel
      have e3 : str "nan" = [110, 97, 110] := by decide +kernel
      rw [e1, e2, e3]
      have hd : isNumDigit c = false := by
        cases hx : isNumDigit c with
        | false => rfl
        | true => exact absurd (.inl hx) hc
      have hdig : digitOf false c = none := by
        unfold digitOf
        have : (48 ≤ c && c ≤ 57) = false := hd
        rw [this]
        rfl
      have hbody : floatBody false (c :: r) = false := by
        unfold floatBody
        by_cases h95 : c = 95
        · subst h95
          have : underscores false 2 (95 :: r) = false := by
            rw [underscores]
            rfl
          simp only [Bool.false_eq_true, if_false, this, Bool.false_and]
          cases readExp false (readMant false false 0 0 false (95 :: r)).rest <;> simp
        · have : readMant false false 0 0 false (c :: r) = ⟨0, 0, false, c :: r⟩ := by
            rw [readMant, if_neg (by simpa using h95), if_neg (by simpa using fun e => hc (.inr (.inr (.inr e)))), hdig]
          rw [this]
          rfl
      have h0 : floatUnsigned (c :: r) = true ∨ sameWord (c :: r) [110, 97, 110] = true := by
        unfold parseFloatOk at h
        split at h
        · rename_i e; cases e; exact absurd (.inr (.inl rfl)) hc
        · rename_i e; cases e; exact absurd (.inr (.inr (.inl rfl))) hc
        · simpa using h
      rcases h0 with h0 | h0
      · unfold floatUnsigned at h0
        rw [Bool.or_eq_true, Bool.or_eq_true] at h0
        rcases h0 with (h0 | h0) | h0
        · exact .inl (by simpa [sameWord] using h0)
        · exact .inr (.inl (by simpa [sameWord] using h0))
        · split at h0
          · rename_i e; cases e; exact absurd (.inl (by decide)) hc
          · rw [hbody] at h0; cases h0
      · exact .inr (.inr (by simpa [sameWord] using h0))

theorem readInt_head {s : Text} {n : Int} (h : readInt s = some n) : ∃ c r, s = c :: r ∧ (isNumDigit c = true ∨ c = 0x2B ∨ c = 0x2D ∨ c = 0x2E) := by
  cases s with
  | nil => cases h
  | cons c r =>
    refine ⟨c, r, rfl, ?_⟩
    unfold readInt at h
    split at h
    · rename_i e; cases e; simp
    · rename_i e; cases e; simp
    · split at h
      · rename_i hd; exact .inl (isDigits_cons.1 hd).1
      · cases h

/-- **C60 (partial)** String content is written as a JSON value if it does not begin with a digit, a sign or a point, is not
one of the words `inf`, `infinity`, `nan` in any case, and is not wrapped in brackets or braces.  Missing: the others
(`C60_words_fails`, `C60_fails`, `C60_wrapped_fails`). -/
theorem C60_plain_partial (s : Text) (hs : rchars s) (h1 : ∀ c r, s = c :: r → ¬ (isNumDigit c = true ∨ c = 0x2B ∨ c = 0x2D ∨ c = 0x2E))
    (h2 : ¬ (s.map lowerByte = str "inf" ∨ s.map lowerByte = str "infinity" ∨ s.map lowerByte = str "nan"))
    (h3 : ¬ (s.head? = some 0x5B ∧ s.getLast? = some 0x5D)) (h4 : ¬ (s.head? = some 0x7B ∧ s.getLast? = some 0x7D)) :
    RValue (formatType parseFloatOk s) := by
  refine (C60_exact parseFloatOk s (.inl hs)).2 ?_
  rintro (⟨⟨n, hn, -⟩, -⟩ | ⟨-, -, h⟩ | h | h)
  · obtain ⟨c, r, e, hc⟩ := readInt_head hn
    exact absurd hc (h1 c r e)
  · rcases parse_head h with h | ⟨c, r, e, hc⟩
    · exact absurd h h2
    · exact absurd hc (h1 c r e)
  · exact absurd h h3
  · exact absurd h h4

/-- A plain word meets the hypotheses; it is written with quotes. -/
example : rchars (str "Nancy") ∧ formatType parseFloatOk (str "Nancy") = str "\"Nancy\"" := by decide +kernel

theorem not_value {t : Text} (h1 : rname t = false) (h2 : rnumber t = false) (h3 : t.head? ≠ some 0x22) (h4 : t.head? ≠ some 0x5B) (h5 : t.head? ≠ some 0x7B) :
    ¬ RValue t := by
  intro h
  rcases rvalue_shape h with (h | h) | h | h | h
  · rw [h1] at h; cases h
  · rw [h2] at h; exact absurd h.1 (by simp)
  · exact h3 h.1
  · exact h4 h.1
  · exact h5 h.1

/-- **C60 does not hold** of words and numerals of Go: `nan`, `Infinity`, `1_0`, `0x1p4`, `.5`, `5.` are string content, are
written without quotes, and are then no JSON. -/
theorem C60_words_fails : ∀ s ∈ [str "nan", str "Infinity", str "1_0", str "0x1p4", str ".5", str "5."],
    rchars s = true ∧ formatType parseFloatOk s = s ∧ ¬ RValue s := by
  have : ∀ s ∈ [str "nan", str "Infinity", str "1_0", str "0x1p4", str ".5", str "5."], rchars s = true ∧ formatType parseFloatOk s = s ∧
      rname s = false ∧ rnumber s = false ∧ s.head? ≠ some 0x22 ∧ s.head? ≠ some 0x5B ∧ s.head? ≠ some 0x7B := by decide +kernel
  intro s hs
  obtain ⟨a, b, c, d, e, f, g⟩ := this s hs
  exact ⟨a, b, not_value c d e f g⟩

/-- So is the document that `SetString` then gives: `{"a":nan}`. -/
theorem C60_document_fails : SetString parseFloatOk (str "{\"a\":1}") (str "nan") [str "a"] = .done (str "{\"a\":nan}") none := by decide +kernel

end Jin
