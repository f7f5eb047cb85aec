import Verif.Model.ParseFloat
import Verif.Spec.Number
import Verif.Proof.Num
/-!
# Proof.ParseFloat — `strconv.ParseFloat` on the numbers of RFC 8259
-/

namespace Jin
open Spec

/-! ### The parts of a number -/

theorem isDigits_cons {c : UInt8} {t : Text} : isDigits (c :: t) = true ↔ isNumDigit c = true ∧ (t = [] ∨ isDigits t = true) := by
  unfold isDigits isNumDigit
  cases t with
  | nil => simp
  | cons d t => simp

/-- What may follow the digits of the fraction. -/
def tailExp (t : Text) : Prop := t = [] ∨ ∃ x : ExpText, x.wf ∧ x.text = t

theorem run_exp : ∀ {t : Text}, NumSt.exp.run t = true → t = [] ∨ isDigits t = true
  | [], _ => .inl rfl
  | c :: t, h => by
    simp only [NumSt.run, NumSt.step] at h
    split at h
    · rename_i hs
      split at hs <;> cases hs
      exact .inr (isDigits_cons.2 ⟨by assumption, run_exp h⟩)
    · cases h

theorem run_sign {t : Text} (h : NumSt.sign.run t = true) : isDigits t = true := by
  cases t with
  | nil => cases h
  | cons c t =>
    simp only [NumSt.run, NumSt.step] at h
    split at h
    · rename_i hs
      split at hs <;> cases hs
      exact isDigits_cons.2 ⟨by assumption, run_exp h⟩
    · cases h

theorem run_e {t : Text} {e : UInt8} (he : (e == 0x65 || e == 0x45) = true) (h : NumSt.e.run t = true) : tailExp (e :: t) := by
  have he : e = 0x65 ∨ e = 0x45 := by simpa using he
  cases t with
  | nil => cases h
  | cons c t =>
    simp only [NumSt.run, NumSt.step] at h
    split at h
    · rename_i hs
      split at hs
      · cases hs
        rename_i hc
        refine .inr ⟨⟨e, [c], t⟩, ⟨he, ?_, run_sign h⟩, rfl⟩
        rw [Bool.or_eq_true, beq_iff_eq, beq_iff_eq] at hc
        rcases hc with rfl | rfl <;> simp
      · split at hs <;> cases hs
        exact .inr ⟨⟨e, [], c :: t⟩, ⟨he, .inl rfl, isDigits_cons.2 ⟨by assumption, run_exp h⟩⟩, rfl⟩
    · cases h

theorem run_frac : ∀ {t : Text}, NumSt.frac.run t = true → ∃ f x, (f = [] ∨ isDigits f = true) ∧ tailExp x ∧ t = f ++ x
  | [], _ => ⟨[], [], .inl rfl, .inl rfl, rfl⟩
  | c :: t, h => by
    simp only [NumSt.run, NumSt.step] at h
    split at h
    · rename_i hs
      split at hs
      · cases hs
        obtain ⟨f, x, h1, h2, rfl⟩ := run_frac h
        exact ⟨c :: f, x, .inr (isDigits_cons.2 ⟨by assumption, h1⟩), h2, rfl⟩
      · split at hs <;> cases hs
        exact ⟨[], c :: t, .inl rfl, run_e (by assumption) h, rfl⟩
    · cases h

/-- What may follow the digits of the integer. -/
def tailNum (t : Text) : Prop := tailExp t ∨ ∃ f x, isDigits f = true ∧ tailExp x ∧ t = 0x2E :: (f ++ x)

theorem run_dot {t : Text} (h : NumSt.dot.run t = true) : tailNum (0x2E :: t) := by
  cases t with
  | nil => cases h
  | cons c t =>
    simp only [NumSt.run, NumSt.step] at h
    split at h
    · rename_i hs
      split at hs <;> cases hs
      obtain ⟨f, x, h1, h2, rfl⟩ := run_frac h
      exact .inr ⟨c :: f, x, isDigits_cons.2 ⟨by assumption, h1⟩, h2, rfl⟩
    · cases h

theorem run_zero {t : Text} (h : NumSt.zero.run t = true) : tailNum t := by
  cases t with
  | nil => exact .inl (.inl rfl)
  | cons c t =>
    simp only [NumSt.run, NumSt.step] at h
    split at h
    · rename_i hs
      split at hs
      · cases hs
        rename_i hc
        rw [beq_iff_eq] at hc
        subst hc
        exact run_dot h
      · split at hs <;> cases hs
        exact .inl (run_e (by assumption) h)
    · cases h

theorem run_int : ∀ {t : Text}, NumSt.int.run t = true → ∃ i x, (i = [] ∨ isDigits i = true) ∧ tailNum x ∧ t = i ++ x
  | [], _ => ⟨[], [], .inl rfl, .inl (.inl rfl), rfl⟩
  | c :: t, h => by
    simp only [NumSt.run, NumSt.step] at h
    split at h
    · rename_i hs
      split at hs
      · cases hs
        obtain ⟨f, x, h1, h2, rfl⟩ := run_int h
        exact ⟨c :: f, x, .inr (isDigits_cons.2 ⟨by assumption, h1⟩), h2, rfl⟩
      · split at hs
        · cases hs
          rename_i hc
          rw [beq_iff_eq] at hc
          subst hc
          exact ⟨[], _, .inl rfl, run_dot h, rfl⟩
        · split at hs <;> cases hs
          exact ⟨[], c :: t, .inl rfl, .inl (run_e (by assumption) h), rfl⟩
    · cases h

theorem run_minus {t : Text} (h : NumSt.minus.run t = true) : ∃ i x, isDigits i = true ∧ tailNum x ∧ t = i ++ x := by
  cases t with
  | nil => cases h
  | cons c t =>
    simp only [NumSt.run, NumSt.step] at h
    split at h
    · rename_i hs
      split at hs
      · cases hs
        rename_i hc
        rw [beq_iff_eq] at hc
        subst hc
        exact ⟨[0x30], t, by decide, run_zero h, rfl⟩
      · split at hs <;> cases hs
        obtain ⟨i, x, h1, h2, rfl⟩ := run_int h
        exact ⟨c :: i, x, isDigits_cons.2 ⟨by assumption, h1⟩, h2, rfl⟩
    · cases h

theorem tail_parts {x : Text} (h : tailExp x) : ∃ o : Option ExpText, (∀ y, o = some y → y.wf) ∧ x = match o with | none => [] | some x => x.text := by
  rcases h with rfl | ⟨y, hy, rfl⟩
  · exact ⟨none, (fun _ h => by cases h), rfl⟩
  · exact ⟨some y, (fun _ h => by cases h; exact hy), rfl⟩

/-- Every number of the grammar has such parts. -/
theorem rnumber_parts {t : Text} (h : rnumber t = true) : ∃ n : NumText, n.wf ∧ n.text = t := by
  have key : ∀ (neg : Bool) (i x : Text), isDigits i = true → tailNum x → ∃ n : NumText, n.wf ∧ n.text = (if neg then [0x2D] else []) ++ (i ++ x) := by
    intro neg i x hi hx
    rcases hx with hx | ⟨f, y, hf, hy, rfl⟩
    · obtain ⟨o, h1, rfl⟩ := tail_parts hx
      exact ⟨⟨neg, i, none, o⟩, ⟨hi, (fun _ h => by cases h), h1⟩, rfl⟩
    · obtain ⟨o, h1, rfl⟩ := tail_parts hy
      exact ⟨⟨neg, i, some f, o⟩, ⟨hi, (fun _ h => by cases h; exact hf), h1⟩, rfl⟩
  unfold rnumber at h
  cases t with
  | nil => cases h
  | cons c t =>
    by_cases hc : c = 0x2D
    · subst hc
      have : NumSt.minus.run t = true := by simpa [NumSt.run, NumSt.step] using h
      obtain ⟨i, x, h1, h2, rfl⟩ := run_minus this
      exact key true i x h1 h2
    · have : NumSt.minus.run (c :: t) = true := by
        have hc' : (c == 0x2D) = false := by simpa using hc
        simpa only [NumSt.run, NumSt.step, hc', Bool.false_eq_true, if_false] using h
      obtain ⟨i, x, h1, h2, e⟩ := run_minus this
      obtain ⟨n, n1, n2⟩ := key false i x h1 h2
      exact ⟨n, n1, by rw [n2, e]; rfl⟩

/-! ### Reading them -/

/-- A digit in every sense used. -/
theorem numDigit_iff {c : UInt8} : isNumDigit c = true ↔ (48 ≤ c ∧ c ≤ 57) := by
  unfold isNumDigit; simp

theorem digit_facts {c : UInt8} (h : isNumDigit c = true) :
    isDigit c = true ∧ digitOf false c = some (c.toNat - 48) ∧ c ≠ 95 ∧ c ≠ 46 ∧ c ≠ 43 ∧ c ≠ 45 ∧ lowerByte c ≠ 120 ∧ lowerByte c ≠ 105 ∧ lowerByte c ≠ 110 ∧ lowerByte c ≠ 101 := by
  revert c
  have : ∀ n : Fin 256, isNumDigit (UInt8.ofNat n) = true → isDigit (UInt8.ofNat n) = true ∧ digitOf false (UInt8.ofNat n) = some ((UInt8.ofNat n).toNat - 48) ∧ (UInt8.ofNat n) ≠ 95 ∧ (UInt8.ofNat n) ≠ 46 ∧ (UInt8.ofNat n) ≠ 43 ∧ (UInt8.ofNat n) ≠ 45 ∧
      lowerByte (UInt8.ofNat n) ≠ 120 ∧ lowerByte (UInt8.ofNat n) ≠ 105 ∧ lowerByte (UInt8.ofNat n) ≠ 110 ∧ lowerByte (UInt8.ofNat n) ≠ 101 := by decide +kernel
  intro c h
  have := this ⟨c.toNat, c.toNat_lt⟩
  simp only [UInt8.ofNat_toNat] at this
  exact this h

theorem digits_all {t : Text} : (t = [] ∨ isDigits t = true) ↔ ∀ c ∈ t, isNumDigit c = true := by
  induction t with
  | nil => simp
  | cons c t ih =>
    rw [isDigits_cons, ih]
    simp

/-- The value of digits read one by one. -/
def decFrom (v : Nat) (t : Text) : Nat := t.foldl (fun a c => a * 10 + (c.toNat - 0x30)) v

theorem readMant_digits {dot any : Bool} {r : Bytes} : ∀ (t : Text) (v f : Nat), (∀ c ∈ t, isNumDigit c = true) →
    readMant false dot v f any (t ++ r) = readMant false dot (decFrom v t) (f + if dot then t.length else 0) (any || !t.isEmpty) r
  | [], v, f, _ => by simp [decFrom]
  | c :: t, v, f, h => by
    obtain ⟨-, h2, h3, h4, -⟩ := digit_facts (h c (by simp))
    rw [List.cons_append, readMant]
    rw [if_neg (by simpa using h3), if_neg (by simpa using h4), h2]
    simp only [Bool.false_eq_true, if_false]
    rw [readMant_any t _ _ (fun c hc => h c (by simp [hc]))]
    rw [show decFrom v (c :: t) = decFrom (v * 10 + (c.toNat - 48)) t from rfl]
    cases dot <;> simp [Nat.add_comm, Nat.add_left_comm]
where
  readMant_any : ∀ (t : Text) (v f : Nat), (∀ c ∈ t, isNumDigit c = true) →
    readMant false dot v f true (t ++ r) = readMant false dot (decFrom v t) (f + if dot then t.length else 0) true r
  | [], v, f, _ => by simp [decFrom]
  | c :: t, v, f, h => by
    obtain ⟨-, h2, h3, h4, -⟩ := digit_facts (h c (by simp))
    rw [List.cons_append, readMant]
    rw [if_neg (by simpa using h3), if_neg (by simpa using h4), h2]
    simp only [Bool.false_eq_true, if_false]
    rw [readMant_any t _ _ (fun c hc => h c (by simp [hc]))]
    rw [show decFrom v (c :: t) = decFrom (v * 10 + (c.toNat - 48)) t from rfl]
    cases dot <;> simp [Nat.add_comm, Nat.add_left_comm]

/-- The exponent as the library keeps it. -/
def capExpo (e : Nat) : Text → Nat
  | [] => e
  | c :: t => capExpo (if e < 10000 then e * 10 + (c.toNat - 48) else e) t

theorem readExpo_digits : ∀ (t : Text) (e : Nat), (∀ c ∈ t, isNumDigit c = true) → readExpo e t = some (capExpo e t)
  | [], _, _ => rfl
  | c :: t, e, h => by
    obtain ⟨h1, -, h3, -⟩ := digit_facts (h c (by simp))
    rw [readExpo, if_neg (by simpa using h3), if_pos h1, readExpo_digits t _ (fun c hc => h c (by simp [hc]))]
    rfl

theorem decFrom_le : ∀ (t : Text) (v : Nat), v ≤ decFrom v t
  | [], _ => Nat.le_refl _
  | c :: t, v => Nat.le_trans (by omega) (decFrom_le t (v * 10 + (c.toNat - 0x30)))

theorem cap_small : ∀ (t : Text) (e : Nat), decFrom e t < 100000 → capExpo e t = decFrom e t
  | [], _, _ => rfl
  | c :: t, e, h => by
    have h' : decFrom (e * 10 + (c.toNat - 48)) t < 100000 := h
    have := decFrom_le t (e * 10 + (c.toNat - 48))
    have he : e < 10000 := by omega
    rw [capExpo, if_pos he, cap_small t _ h']
    rfl

theorem cap_large : ∀ (t : Text) (e : Nat), 10000 ≤ decFrom e t → 10000 ≤ capExpo e t
  | [], _, h => h
  | c :: t, e, h => by
    rw [capExpo]
    refine cap_large t _ ?_
    split
    · exact h
    · have := decFrom_le t e
      omega

/-- No underscore in it: nothing to check. -/
theorem underscores_none {hex : Bool} : ∀ (t : Bytes) (saw : Nat), (95 : UInt8) ∉ t → saw ≠ 1 → underscores hex saw t = true
  | [], saw, _, h => by rw [underscores]; simpa using h
  | c :: t, saw, hm, h => by
    have hc : c ≠ 95 := fun e => hm (by simp [e])
    have ht : (95 : UInt8) ∉ t := fun e => hm (by simp [e])
    rw [underscores]
    split
    · exact underscores_none t 0 ht (by decide)
    · rw [if_neg (by simpa using hc), underscores_none t 2 ht (by decide), Bool.and_true]
      simpa using h

def expText (o : Option ExpText) : Text := match o with | none => [] | some x => x.text

theorem readExp_text (n : NumText) (hn : n.wf) : readExp false (expText n.exp) = some (n.expNeg, capExpo 0 (match n.exp with | none => [] | some x => x.digits)) := by
  have hx := hn.2.2
  unfold expText NumText.expNeg
  cases ho : n.exp with
  | none => rfl
  | some x =>
    obtain ⟨h1, h2, h3⟩ := hx x ho
    obtain ⟨e, sg, ds⟩ := x
    simp only at h1 h2 h3 ⊢
    have hall := digits_all.1 (.inr h3)
    have he : (lowerByte e == (if false = true then 112 else 101)) = true := by rcases h1 with rfl | rfl <;> decide
    cases ds with
    | nil => cases h3
    | cons d ds =>
      obtain ⟨d1, -, -, -, d5, d6, -⟩ := digit_facts (hall d (by simp))
      unfold ExpText.text
      simp only
      rw [readExp.eq_def]
      simp only
      rw [if_pos he]
      rcases h2 with rfl | rfl | rfl
      · have hm : expSign (d :: ds) = (false, d :: ds) := by
          unfold expSign
          split
          · rename_i h; cases h; exact absurd rfl d5
          · rename_i h; cases h; exact absurd rfl d6
          · rfl
        simp only [List.nil_append]
        rw [hm]
        simp only [d1, if_true, readExpo_digits _ _ hall]
        rfl
      · simp only [List.cons_append, List.nil_append, expSign, d1, if_true, readExpo_digits _ _ hall]
        rfl
      · simp only [List.cons_append, List.nil_append, expSign, d1, if_true, readExpo_digits _ _ hall]
        rfl

/-- The mantissa ends at the exponent. -/
theorem readMant_exp {n : NumText} (hn : n.wf) (dot any : Bool) (v f : Nat) : readMant false dot v f any (expText n.exp) = ⟨v, f, any, expText n.exp⟩ := by
  unfold expText
  cases ho : n.exp with
  | none => rfl
  | some x =>
    obtain ⟨h1, -, -⟩ := hn.2.2 x ho
    obtain ⟨e, sg, ds⟩ := x
    simp only at h1 ⊢
    unfold ExpText.text
    simp only
    rw [readMant]
    rcases h1 with rfl | rfl <;> rfl

theorem decFrom_append (v : Nat) (a b : Text) : decFrom v (a ++ b) = decFrom (decFrom v a) b := by simp [decFrom]

/-- The text behind the sign. -/
def Spec.NumText.unsigned (n : NumText) : Text := n.int ++ ((match n.frac with | none => [] | some f => 0x2E :: f) ++ expText n.exp)

theorem readMant_text (n : NumText) (hn : n.wf) : readMant false false 0 0 false n.unsigned = ⟨n.digits, n.fraction.length, true, expText n.exp⟩ := by
  have hi : ∀ c ∈ n.int, isNumDigit c = true := digits_all.1 (.inr hn.1)
  have hne : n.int.isEmpty = false := by
    cases h : n.int with
    | nil => have := hn.1; rw [h] at this; cases this
    | cons _ _ => rfl
  unfold Spec.NumText.unsigned NumText.digits NumText.fraction
  rw [readMant_digits _ _ _ hi, hne]
  cases ho : n.frac with
  | none =>
    simp only [List.nil_append, Option.getD_none, List.append_nil]
    rw [readMant_exp hn]
    rfl
  | some f =>
    have hf : ∀ c ∈ f, isNumDigit c = true := digits_all.1 (.inr (hn.2.1 f ho))
    simp only [List.cons_append, Option.getD_some]
    rw [readMant, if_neg (by decide), if_pos (by decide), if_neg (by decide), readMant_digits _ _ _ hf, readMant_exp hn]
    simp only [Bool.not_false, Bool.or_true, if_true, Bool.true_or]
    rw [show decimalValue (n.int ++ f) = decFrom 0 (n.int ++ f) from rfl, decFrom_append]
    simp

theorem no95 (n : NumText) (hn : n.wf) : (95 : UInt8) ∉ n.unsigned := by
  have dig : ∀ t : Text, isDigits t = true → (95 : UInt8) ∉ t := by
    intro t ht h
    exact (digit_facts (digits_all.1 (.inr ht) 95 h)).2.2.1 rfl
  intro h
  unfold Spec.NumText.unsigned at h
  rcases List.mem_append.1 h with h | h
  · exact dig _ hn.1 h
  rcases List.mem_append.1 h with h | h
  · cases ho : n.frac with
    | none => rw [ho] at h; cases h
    | some f =>
      rw [ho] at h
      rcases List.mem_cons.1 h with h | h
      · cases h
      · exact dig _ (hn.2.1 f ho) h
  · unfold expText at h
    cases ho : n.exp with
    | none => rw [ho] at h; cases h
    | some x =>
      rw [ho] at h
      obtain ⟨h1, h2, h3⟩ := hn.2.2 x ho
      rcases List.mem_cons.1 h with h | h
      · rcases h1 with e | e <;> rw [e] at h <;> cases h
      rcases List.mem_append.1 h with h | h
      · rcases h2 with e | e | e <;> rw [e] at h <;> simp at h
      · exact dig _ h3 h

theorem sameWord_head {c : UInt8} {t w : Bytes} (h : ∀ d ∈ w.head?, lowerByte c ≠ d) (hw : w ≠ []) : sameWord (c :: t) w = false := by
  cases w with
  | nil => exact absurd rfl hw
  | cons d w =>
    have := h d (by simp)
    unfold sameWord
    simp [this]

theorem text_unsigned (n : NumText) : n.text = (if n.neg then [0x2D] else []) ++ n.unsigned := rfl

/-- Not a hexadecimal number, not a word. -/
theorem unsigned_body (n : NumText) (hn : n.wf) : floatUnsigned n.unsigned = floatBody false n.unsigned ∧ sameWord n.unsigned [110, 97, 110] = false ∧
    ∃ c r, n.unsigned = c :: r ∧ isNumDigit c = true := by
  have hall := digits_all.1 (.inr hn.1)
  cases hi : n.int with
  | nil => have := hn.1; rw [hi] at this; cases this
  | cons c i =>
    rw [hi] at hall
    obtain ⟨-, -, -, -, -, -, -, h105, h110, -⟩ := digit_facts (hall c (by simp))
    have hu : n.unsigned = c :: (i ++ ((match n.frac with | none => [] | some f => 0x2E :: f) ++ expText n.exp)) := by
      unfold Spec.NumText.unsigned; rw [hi]; rfl
    refine ⟨?_, ?_, _, _, hu, hall c (by simp)⟩
    · unfold floatUnsigned
      rw [show sameWord n.unsigned [105, 110, 102] = false by rw [hu]; exact sameWord_head (by simpa using h105) (by simp),
        show sameWord n.unsigned [105, 110, 102, 105, 110, 105, 116, 121] = false by rw [hu]; exact sameWord_head (by simpa using h105) (by simp)]
      simp only [Bool.or_self, Bool.false_or]
      split
      · rename_i x d r e
        rw [if_neg]
        have hx : i ++ ((match n.frac with | none => [] | some f => 0x2E :: f) ++ expText n.exp) = x :: d :: r := by
          rw [hu] at e; exact (List.cons.inj e).2
        intro hlow
        have hlow : lowerByte x = 120 := by simpa using hlow
        cases i with
        | cons y i =>
          have hyx : y = x := (List.cons.inj hx).1
          subst hyx
          exact (digit_facts (hall y (by simp))).2.2.2.2.2.2.1 hlow
        | nil =>
          rw [List.nil_append] at hx
          cases hf : n.frac with
          | some f => rw [hf] at hx; have hyx : 0x2E = x := (List.cons.inj hx).1; subst hyx; revert hlow; decide
          | none =>
            rw [hf, List.nil_append] at hx
            unfold expText at hx
            cases ho : n.exp with
            | none => rw [ho] at hx; cases hx
            | some y =>
              obtain ⟨h1, -, -⟩ := hn.2.2 y ho
              rw [ho] at hx
              have : y.e = x := (List.cons.inj hx).1
              rw [this] at h1
              rcases h1 with e | e <;> rw [e] at hlow <;> revert hlow <;> decide
      · rfl
    · rw [hu]; exact sameWord_head (by simpa using h110) (by simp)

theorem parse_unsigned (n : NumText) (hn : n.wf) : parseFloatOk n.text = floatBody false n.unsigned := by
  obtain ⟨h1, h2, c, r, h3, h4⟩ := unsigned_body n hn
  obtain ⟨-, -, -, -, h43, h45, -⟩ := digit_facts h4
  rw [text_unsigned]
  cases n.neg with
  | true => exact h1
  | false =>
    simp only [Bool.false_eq_true, if_false, List.nil_append]
    unfold parseFloatOk
    rw [h3]
    split
    · rename_i e; cases e; exact absurd rfl h43
    · rename_i e; cases e; exact absurd rfl h45
    · rw [← h3, h1, h2, Bool.or_false]

/-- What the library computes with. -/
theorem parse_exact (n : NumText) (hn : n.wf) :
    parseFloatOk n.text = !outOfRange false n.digits n.fraction.length n.expNeg (capExpo 0 (match n.exp with | none => [] | some x => x.digits)) := by
  rw [parse_unsigned n hn]
  unfold floatBody
  rw [readMant_text n hn]
  simp only
  rw [readExp_text n hn]
  simp only [Bool.true_and, Bool.false_eq_true, if_false]
  rw [underscores_none _ _ (no95 n hn) (by decide), Bool.true_and]

theorem pow10_pos (k : Nat) : 0 < 10 ^ k := Nat.pow_pos (by decide)

theorem limit_lt : floatLimit < 10 ^ 309 := by decide +kernel
theorem limit_pos : 0 < floatLimit := by decide +kernel

theorem decFrom_lt : ∀ (t : Text) (v : Nat), (∀ c ∈ t, isNumDigit c = true) → decFrom v t < (v + 1) * 10 ^ t.length
  | [], v, _ => by simp [decFrom]
  | c :: t, v, h => by
    have hc : c.toNat - 48 < 10 := by
      obtain ⟨h1, h2⟩ := numDigit_iff.1 (h c (by simp))
      have h2 : c.toNat ≤ 57 := by simpa [UInt8.le_iff_toNat_le] using h2
      omega
    have := decFrom_lt t (v * 10 + (c.toNat - 48)) (fun c hc => h c (by simp [hc]))
    refine Nat.lt_of_lt_of_le this ?_
    rw [List.length_cons, Nat.pow_succ, Nat.mul_comm (10 ^ t.length) 10, ← Nat.mul_assoc]
    exact Nat.mul_le_mul_right _ (by omega)

/-- The exact comparison, when the exponent has not been cut off or the text is short. -/
theorem outOfRange_iff (n : NumText) (hn : n.wf) (hs : n.expo < 100000 ∨ n.text.length ≤ 9000) :
    outOfRange false n.digits n.fraction.length n.expNeg (capExpo 0 (match n.exp with | none => [] | some x => x.digits)) = true ↔ n.tooBig := by
  have hexpo : n.expo = decFrom 0 (match n.exp with | none => [] | some x => x.digits) := by
    unfold NumText.expo; cases n.exp <;> rfl
  by_cases h : n.expo < 100000
  · rw [cap_small _ _ (by rw [← hexpo]; exact h), ← hexpo]
    unfold outOfRange NumText.tooBig NumText.tens NumText.tenths
    simp only [Bool.false_eq_true, if_false, decide_eq_true_eq]
    rfl
  · have hlen := hs.resolve_left h
    generalize hE : capExpo 0 (match n.exp with | none => [] | some x => x.digits) = E
    have hE' : 10000 ≤ E := by rw [← hE]; exact cap_large _ _ (by rw [← hexpo]; omega)
    have hexp : 10000 ≤ n.expo := by omega
    have hfl : n.int.length + n.fraction.length ≤ 9000 := by
      refine Nat.le_trans ?_ hlen
      rw [text_unsigned]
      unfold Spec.NumText.unsigned NumText.fraction
      cases n.frac <;> simp <;> omega
    have hd : n.digits < 10 ^ 9000 := by
      have hall : ∀ c ∈ n.int ++ n.fraction, isNumDigit c = true := by
        intro c hc
        rcases List.mem_append.1 hc with hc | hc
        · exact digits_all.1 (.inr hn.1) c hc
        · unfold NumText.fraction at hc
          cases ho : n.frac with
          | none => rw [ho] at hc; cases hc
          | some f => rw [ho] at hc; exact digits_all.1 (.inr (hn.2.1 f ho)) c hc
      have := decFrom_lt (n.int ++ n.fraction) 0 hall
      rw [Nat.zero_add, Nat.one_mul, List.length_append] at this
      exact Nat.lt_of_lt_of_le this (Nat.pow_le_pow_right (by decide) hfl)
    have key : ∀ E, 10000 ≤ E →
        (floatLimit * 10 ^ (n.fraction.length + if n.expNeg then E else 0) ≤ n.digits * 10 ^ (if n.expNeg then 0 else E) ↔ n.expNeg = false ∧ 0 < n.digits) := by
      intro E hE
      cases n.expNeg with
      | true =>
        simp only [if_true, Nat.pow_zero, Nat.mul_one, Bool.true_eq_false, false_and, iff_false, Nat.not_le]
        refine Nat.lt_of_lt_of_le hd (Nat.le_trans (Nat.pow_le_pow_right (by decide) (by omega : 9000 ≤ n.fraction.length + E)) ?_)
        exact Nat.le_mul_of_pos_left _ limit_pos
      | false =>
        simp only [Bool.false_eq_true, if_false, Nat.add_zero, true_and]
        constructor
        · intro h
          refine Nat.pos_of_ne_zero fun e => ?_
          rw [e, Nat.zero_mul] at h
          exact absurd (Nat.mul_pos limit_pos (pow10_pos n.fraction.length)) (by omega)
        · intro h
          refine Nat.le_trans (Nat.mul_le_mul_right _ (Nat.le_of_lt limit_lt)) ?_
          rw [← Nat.pow_add]
          exact Nat.le_trans (Nat.pow_le_pow_right (by decide) (by omega)) (Nat.le_mul_of_pos_left _ h)
    have a := key E hE'
    have b := key n.expo hexp
    unfold outOfRange NumText.tooBig NumText.tens NumText.tenths
    simp only [Bool.false_eq_true, if_false, decide_eq_true_eq]
    exact a.trans b.symm

end Jin
