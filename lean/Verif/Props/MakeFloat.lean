import Verif.Props.TextFloat
/-!
# Property C47: exactly which numbers `MakeArrayFloat` writes
-/

namespace Jin
open Spec

/-- The sign and the digits before the point. -/
def Spec.NumText.lead (n : NumText) : Text := (if n.neg then [0x2D] else []) ++ n.int

/-- The numbers without exponent that `MakeArrayFloat` writes: whole numbers with a digit other than `0` behind the first two bytes, fractions with one
digit and no sign before the point, and those with 20 digits or more there that are too large from the third byte on. -/
def Spec.NumText.kept (n : NumText) : Bool :=
  match n.frac with
  | none => (n.lead.drop 2).any (· != 0x30)
  | some f => !n.neg && n.int.length == 1 && f.any (· != 0x30) || decide (2 ^ 64 ≤ decimalValue (n.lead.drop 2))

namespace MF

/-- What `exp, _ := strconv.Atoi(s)` gives. -/
def num (s : Bytes) : Int := (atoi s).getD (atoiBad s)

def Digits (t : Bytes) : Prop := ∀ c ∈ t, 48 ≤ c ∧ c ≤ 57

theorem digits_of {t : Bytes} (h : isDigits t = true) : t ≠ [] ∧ Digits t := by
  unfold isDigits at h
  simp only [Bool.and_eq_true, Bool.not_eq_true', List.isEmpty_eq_false_iff, List.all_eq_true, decide_eq_true_eq] at h
  exact ⟨h.1, fun c hc => h.2 c hc⟩

theorem of_digits {t : Bytes} (h0 : t ≠ []) (h : Digits t) : isDigits t = true := by
  unfold isDigits
  simp only [Bool.and_eq_true, Bool.not_eq_true', List.isEmpty_eq_false_iff, List.all_eq_true, decide_eq_true_eq]
  exact ⟨h0, h⟩

theorem fold_ge (t : Bytes) : ∀ a : Nat, a ≤ t.foldl (fun a c => a * 10 + (c.toNat - 0x30)) a := by
  induction t with
  | nil => intro a; exact Nat.le_refl a
  | cons c t ih =>
    intro a
    refine Nat.le_trans ?_ (ih _)
    show a ≤ a * 10 + _
    omega

theorem fold_zero (t : Bytes) (h : Digits t) : ∀ a : Nat, t.foldl (fun a c => a * 10 + (c.toNat - 0x30)) a ≠ 0 ↔ a ≠ 0 ∨ ∃ c ∈ t, c ≠ 48 := by
  induction t with
  | nil => intro a; simp
  | cons c t ih =>
    intro a
    rw [List.foldl_cons, ih (fun x hx => h x (by simp [hx]))]
    have hc := (h c (by simp)).1
    have hc : 48 ≤ c.toNat := UInt8.le_iff_toNat_le.1 hc
    have e : c ≠ 48 ↔ c.toNat ≠ 48 := by
      rw [Ne, Ne, ← UInt8.toNat_inj]; rfl
    simp only [List.mem_cons, exists_eq_or_imp, e]
    constructor
    · rintro (h1 | h1)
      · by_cases ha : a = 0
        · right; left; subst ha; omega
        · exact .inl ha
      · exact .inr (.inr h1)
    · rintro (h1 | h1 | h1)
      · left; omega
      · left; omega
      · exact .inr h1

theorem digit_eq {c : UInt8} (h : 48 ≤ c ∧ c ≤ 57) : isDigit c = true := by
  unfold isDigit; simp [h]

theorem past_all (t : Bytes) (h : Digits t) : ∀ n, pastRange n t = true := by
  induction t with
  | nil => intro n; rfl
  | cons c t ih =>
    intro n
    rw [pastRange, digit_eq (h c (by simp)), ih (fun x hx => h x (by simp [hx]))]
    simp

theorem past_point (f t : Bytes) (h : Digits t) : ∀ n, n < 2 ^ 64 →
    (pastRange n (t ++ 46 :: f) = true ↔ 2 ^ 64 ≤ t.foldl (fun a c => a * 10 + (c.toNat - 0x30)) n) := by
  induction t with
  | nil =>
    intro n hn
    rw [List.nil_append, pastRange, show isDigit 46 = false by decide]
    simp; omega
  | cons c t ih =>
    intro n hn
    rw [List.cons_append, pastRange, digit_eq (h c (by simp)), List.foldl_cons, Bool.true_and, Bool.or_eq_true, decide_eq_true_eq]
    by_cases hb : 2 ^ 64 ≤ n * 10 + (c.toNat - 48)
    · exact ⟨fun _ => Nat.le_trans hb (fold_ge t _), fun _ => .inl hb⟩
    · rw [ih (fun x hx => h x (by simp [hx])) _ (by omega)]
      exact ⟨fun h1 => h1.resolve_left hb, .inr⟩

theorem bad_eq {c : UInt8} {t : Bytes} (h1 : c ≠ 43) (h2 : c ≠ 45) :
    atoiBad (c :: t) = if pastRange 0 (c :: t) then 2 ^ 63 - 1 else 0 := by
  unfold atoiBad
  split
  · rename_i h; cases h; exact absurd rfl h1
  · rename_i h; cases h; exact absurd rfl h2
  · simp

theorem read_eq {c : UInt8} {t : Bytes} (h1 : c ≠ 43) (h2 : c ≠ 45) :
    readInt (c :: t) = (if isDigits (c :: t) then some (decimalValue (c :: t) : Int) else none).filter
      fun n => decide (-9223372036854775808 ≤ n ∧ n ≤ 9223372036854775807) := by
  unfold readInt
  split
  · rename_i h; cases h; exact absurd rfl h1
  · rename_i h; cases h; exact absurd rfl h2
  · rfl

theorem num_digits {t : Bytes} (h : Digits t) : num t ≠ 0 ↔ ∃ c ∈ t, c ≠ 48 := by
  cases t with
  | nil => simp [num, show atoi [] = none by decide +kernel, show atoiBad [] = 0 by decide +kernel]
  | cons c t =>
    have hc := h c (by simp)
    have h1 : c ≠ 43 := by rintro rfl; exact absurd hc.1 (by decide)
    have h2 : c ≠ 45 := by rintro rfl; exact absurd hc.1 (by decide)
    have hz := fold_zero (c :: t) h 0
    rw [show ((0:Nat) ≠ 0 ∨ ∃ x ∈ c :: t, x ≠ 48) ↔ ∃ x ∈ c :: t, x ≠ 48 by simp] at hz
    rw [← hz]
    change _ ↔ decimalValue (c :: t) ≠ 0
    unfold num
    rw [atoi_eq, read_eq h1 h2, bad_eq h1 h2, of_digits (by simp) h, past_all _ h, if_pos rfl, if_pos rfl, Option.filter_some]
    split
    · rw [Option.getD_some]; omega
    · rename_i hn
      rw [Option.getD_none]
      simp only [decide_eq_true_eq] at hn
      constructor
      · intro _; omega
      · intro _; decide

theorem num_point {t : Bytes} (f : Bytes) (h : Digits t) : num (t ++ 46 :: f) ≠ 0 ↔ 2 ^ 64 ≤ decimalValue t := by
  have hp := past_point f t h 0 (by decide)
  change _ ↔ 2 ^ 64 ≤ decimalValue t at hp
  rw [← hp]
  have hd : isDigits (t ++ 46 :: f) = false := by
    cases hd : isDigits (t ++ 46 :: f) with
    | false => rfl
    | true => exact absurd ((digits_of hd).2 46 (by simp)).1 (by decide)
  obtain ⟨c, s, hs, h1, h2⟩ : ∃ c s, t ++ 46 :: f = c :: s ∧ c ≠ 43 ∧ c ≠ 45 := by
    cases t with
    | nil => exact ⟨46, f, rfl, by decide, by decide⟩
    | cons c t =>
      have hc := h c (by simp)
      exact ⟨c, t ++ 46 :: f, rfl, by rintro rfl; exact absurd hc.1 (by decide), by rintro rfl; exact absurd hc.1 (by decide)⟩
  rw [hs] at hd ⊢
  unfold num
  rw [atoi_eq, read_eq h1 h2, bad_eq h1 h2, hd]
  simp only [Bool.false_eq_true, if_false, Option.filter_none, Option.getD_none]
  split
  · simp_all
  · simp_all

theorem item_eq {t : Bytes} (h : 101 ∉ t) (h2 : 2 ≤ t.length) : floatItem t = .ok (if num (t.drop 2) = 0 then [] else t) := by
  unfold floatItem
  rw [lastE_none h]
  have : slice t 2 (t.length : Int) = .ok (t.drop 2) := by
    unfold slice
    rw [if_pos (by omega)]
    simp only [Out.ok.injEq]
    rw [List.take_of_length_le] <;> simp
  simp only [Int.zero_add, Int.natCast_zero]
  rw [this]
  change (if ((num (t.drop 2)) == 0) = true then slice t 0 0 else Out.ok t) = _
  have h0 : slice t 0 0 = .ok [] := by unfold slice; simp
  rw [h0]
  by_cases hz : num (t.drop 2) = 0 <;> simp [hz]

theorem item_short {t : Bytes} (h : 101 ∉ t) (h2 : t.length < 2) : floatItem t = .panic := by
  unfold floatItem
  rw [lastE_none h]
  have : slice t 2 (t.length : Int) = .panic := by
    unfold slice
    rw [if_neg (by omega)]
  simp only [Int.zero_add, Int.natCast_zero]
  rw [this]; rfl

theorem lead_digits {n : NumText} (hn : n.wf) (k : Nat) : Digits (n.lead.drop (k + 1)) := by
  have hi := (digits_of hn.1).2
  unfold NumText.lead
  cases n.neg with
  | false => exact fun c hc => hi c (List.mem_of_mem_drop (by simpa using hc))
  | true => exact fun c hc => hi c (List.mem_of_mem_drop (i := k) (by simpa using hc))

theorem text_lead {n : NumText} (he : n.exp = none) : n.text = n.lead ++ (match n.frac with | none => [] | some f => 46 :: f) := by
  unfold NumText.text NumText.lead
  rw [he]; cases n.frac <;> simp

theorem any_ne (t : Bytes) : t.any (· != 48) = true ↔ ∃ c ∈ t, c ≠ 48 := by simp

theorem num_kept {n : NumText} (hn : n.wf) (he : n.exp = none) : num (n.text.drop 2) ≠ 0 ↔ n.kept = true := by
  rw [text_lead he]
  have hl := lead_digits hn 1
  obtain ⟨hi0, -⟩ := digits_of hn.1
  have hlen : n.lead.length = (if n.neg then 1 else 0) + n.int.length := by unfold NumText.lead; cases n.neg <;> simp; omega
  have hi1 : 1 ≤ n.int.length := List.length_pos_iff.2 hi0
  unfold NumText.kept
  cases hf : n.frac with
  | none =>
    simp only [List.append_nil]
    rw [any_ne]
    exact num_digits hl
  | some f =>
    have hfd := (digits_of (hn.2.1 f hf)).2
    simp only [Bool.or_eq_true, Bool.and_eq_true, any_ne, decide_eq_true_eq, beq_iff_eq, Bool.not_eq_true', and_assoc]
    by_cases h1 : n.lead.length = 1
    · have hd : n.lead.drop 2 = [] := List.drop_eq_nil_of_le (by omega)
      have hneg : n.neg = false := by
        cases h : n.neg with
        | false => rfl
        | true => rw [h] at hlen; simp at hlen; omega
      have hint : n.int.length = 1 := by rw [hneg] at hlen; simp at hlen; omega
      have e : (n.lead ++ 46 :: f).drop 2 = f := by
        rw [List.drop_append, hd, h1]; rfl
      rw [e, num_digits hfd, hd]
      simp [hneg, hint, decimalValue]
    · have h2 : 2 ≤ n.lead.length := by split at hlen <;> omega
      have e : (n.lead ++ 46 :: f).drop 2 = n.lead.drop 2 ++ 46 :: f := by
        rw [List.drop_append_of_le_length h2]
      rw [e, num_point f hl]
      constructor
      · exact .inr
      · rintro (⟨h3, h4, -⟩ | h3)
        · rw [h3] at hlen; simp at hlen; omega
        · exact h3

theorem no_e {n : NumText} (hn : n.wf) (he : n.exp = none) : 101 ∉ n.text := by
  rw [text_lead he]
  have hi := (digits_of hn.1).2
  intro h
  rcases List.mem_append.1 h with h | h
  · unfold NumText.lead at h
    rcases List.mem_append.1 h with h | h
    · split at h <;> simp at h
    · exact absurd (hi _ h).2 (by decide)
  · cases hf : n.frac with
    | none => rw [hf] at h; cases h
    | some f =>
      rw [hf] at h
      rcases List.mem_cons.1 h with h | h
      · exact absurd h (by decide)
      · exact absurd ((digits_of (hn.2.1 f hf)).2 _ h).2 (by decide)

theorem comma_len (ns : List NumText) (hl : ∀ n ∈ ns, 2 ≤ n.text.length) :
    (eachComma (ns.map fun n => if n.kept then n.text else [])).length ≤ (eachComma (ns.map NumText.text)).length ∧
    ((eachComma (ns.map fun n => if n.kept then n.text else [])).length = (eachComma (ns.map NumText.text)).length → ∀ n ∈ ns, n.kept = true) := by
  induction ns with
  | nil => simp
  | cons n ns ih =>
    obtain ⟨h1, h2⟩ := ih fun m hm => hl m (by simp [hm])
    have hn := hl n (by simp)
    have e : ∀ (t : Bytes) ts, (eachComma (t :: ts)).length = t.length + 1 + (eachComma ts).length := by intro t ts; simp [eachComma]; omega
    rw [List.map_cons, List.map_cons, e, e]
    cases hk : n.kept with
    | true =>
      simp only [if_true]
      refine ⟨by omega, fun h m hm => ?_⟩
      rcases List.mem_cons.1 hm with rfl | hm
      · exact hk
      · exact h2 (by omega) m hm
    | false =>
      simp only [Bool.false_eq_true, if_false, List.length_nil]
      exact ⟨by omega, fun h => by omega⟩

end MF

/-- **C47 (partial)** What `MakeArrayFloat` gives for numbers that are written without exponent: it panics exactly when one of them is written with one byte, and
otherwise leaves out exactly those that are not `NumText.kept`; the commas around them stay. -/
theorem C47_exact_partial {F : Type} (fl : FloatLib F) (xs : List F) (ns : List NumText) (h : xs.map fl.format = ns.map NumText.text)
    (hn : ∀ n ∈ ns, n.wf ∧ n.exp = none) :
    MakeArrayFloat fl (some xs) = if ns.any (fun n => n.text.length < 2) then .panic
      else .ok (MakeArrayBytes (some (ns.map fun n => if n.kept then n.text else []))) := by
  have key : floatItems (ns.map NumText.text) = if ns.any (fun n => n.text.length < 2) then .panic
      else .ok (ns.map fun n => if n.kept then n.text else []) := by
    clear h
    induction ns with
    | nil => rfl
    | cons n ns ih =>
      obtain ⟨h1, h2⟩ := hn n (by simp)
      have he := MF.no_e h1 h2
      rw [List.map_cons, floatItems, ih (fun m hm => hn m (by simp [hm])), List.any_cons]
      by_cases hl : n.text.length < 2
      · rw [MF.item_short he hl, decide_eq_true hl]; rfl
      · rw [MF.item_eq he (by omega), decide_eq_false hl, Bool.false_or]
        have e : (if MF.num (n.text.drop 2) = 0 then ([] : Bytes) else n.text) = if n.kept then n.text else [] := by
          have := MF.num_kept h1 h2
          by_cases hk : MF.num (n.text.drop 2) = 0
          · rw [if_pos hk, if_neg (fun hc => this.2 hc hk)]
          · rw [if_neg hk, if_pos (this.1 hk)]
        rw [e]
        cases ns.any fun n => decide (n.text.length < 2) <;> rfl
  unfold MakeArrayFloat
  dsimp only
  rw [h, key]
  split <;> rfl

/-- **C47 (partial)** For numbers that are written without exponent the result is the array of their texts exactly when all of them are kept and written with two bytes or more. -/
theorem C47_iff_partial {F : Type} (fl : FloatLib F) (xs : List F) (ns : List NumText) (h : xs.map fl.format = ns.map NumText.text)
    (hn : ∀ n ∈ ns, n.wf ∧ n.exp = none) :
    MakeArrayFloat fl (some xs) = .ok (MakeArrayBytes (some (xs.map fl.format))) ↔ ∀ n ∈ ns, n.kept = true ∧ 2 ≤ n.text.length := by
  rw [C47_exact_partial fl xs ns h hn, h]
  constructor
  · intro he
    split at he
    · cases he
    rename_i ha
    have hl : ∀ n ∈ ns, 2 ≤ n.text.length := fun n hm => by
      simp only [List.any_eq_true, decide_eq_true_eq, not_exists, not_and] at ha
      have := ha n hm
      omega
    have he := Out.ok.inj he
    refine fun n hm => ⟨?_, hl n hm⟩
    have he := congrArg List.length he
    unfold MakeArrayBytes makeArr closeWith at he
    simp only [List.length_append, List.length_dropLast, List.length_cons, List.length_nil] at he
    exact (MF.comma_len ns hl).2 (by omega) n hm
  · intro hk
    rw [if_neg (by
      simp only [List.any_eq_true, decide_eq_true_eq, not_exists, not_and]
      intro n hm; have := (hk n hm).2; omega)]
    rw [List.map_congr_left (fun n hm => by rw [if_pos (hk n hm).1])]

/-- **C47 (partial)** Every finite number is written without exponent, so the two theorems above are about all of them. -/
theorem C47_finite (x : UInt64) (h : isFinite x) : ∃ n : NumText, n.text = goFloats.format x ∧ n.wf ∧ n.exp = none :=
  ⟨_, shortest_text h, numOf_wf _ _ _, rfl⟩

/-- `1.5`, `-12` and `101` are kept, `12.5`, `-1.5`, `12`, `100` and `-5` are not, and `5` panics. -/
example : (NumText.kept ⟨false, str "1", some (str "5"), none⟩ = true ∧ NumText.kept ⟨true, str "12", none, none⟩ = true ∧
    NumText.kept ⟨false, str "101", none, none⟩ = true) ∧
    (NumText.kept ⟨false, str "12", some (str "5"), none⟩ = false ∧ NumText.kept ⟨true, str "1", some (str "5"), none⟩ = false ∧
    NumText.kept ⟨false, str "12", none, none⟩ = false ∧ NumText.kept ⟨false, str "100", none, none⟩ = false ∧
    NumText.kept ⟨true, str "5", none, none⟩ = false) ∧
    MakeArrayFloat goFloats (some [0x3FF8000000000000, 0x4029000000000000, 0x4059400000000000]) = .ok (str "[1.5,,101]") ∧
    MakeArrayFloat goFloats (some [0x3FF8000000000000, 0x4014000000000000]) = .panic ∧
    isFinite 0x3FF8000000000000 ∧ isFinite 0x4029000000000000 ∧ isFinite 0x4059400000000000 := by
  refine ⟨by decide +kernel, by decide +kernel, ?_, ?_, ?_⟩ <;> decide +kernel

namespace Go

/-- **C119 (partial)** The same of the text, for all finite numbers: `MakeArrayFloat` panics when one of them is written with one byte, and otherwise leaves out
exactly those that are not `NumText.kept`. -/
theorem C119_float_exact_partial (xs : List UInt64) (h : ∀ x ∈ xs, isFinite x) : ∃ ns : List NumText, ns.map NumText.text = xs.map formatFloat ∧ (∀ n ∈ ns, n.wf ∧ n.exp = none) ∧
    ((∃ n ∈ ns, n.text.length < 2) → Call1 goFloats (go% MakeArrayFloat) [.floats xs] .panic) ∧
    ((∀ n ∈ ns, 2 ≤ n.text.length) →
      Call1 goFloats (go% MakeArrayFloat) [.floats xs] (.ok [.bytes (MakeArrayBytes (some (ns.map fun n => if n.kept then n.text else [])))])) := by
  have hns : ∃ ns : List NumText, ns.map NumText.text = xs.map goFloats.format ∧ ∀ n ∈ ns, n.wf ∧ n.exp = none := by
    induction xs with
    | nil => exact ⟨[], rfl, by simp⟩
    | cons x xs ih =>
      obtain ⟨n, h1, h2⟩ := C47_finite x (h x (by simp))
      obtain ⟨ns, h3, h4⟩ := ih fun y hy => h y (by simp [hy])
      refine ⟨n :: ns, by rw [List.map_cons, List.map_cons, h1, h3], fun m hm => ?_⟩
      rcases List.mem_cons.1 hm with rfl | hm
      · exact h2
      · exact h4 m hm
  obtain ⟨ns, h1, h2⟩ := hns
  have t := text_MakeArrayFloat goFloats (some xs)
  rw [C47_exact_partial goFloats xs ns h1.symm h2] at t
  refine ⟨ns, h1, h2, fun ⟨n, hn, hl⟩ => ?_, fun hl => ?_⟩
  · rw [if_pos (by simp only [List.any_eq_true, decide_eq_true_eq]; exact ⟨n, hn, hl⟩)] at t
    exact t
  · rw [if_neg (by simp only [List.any_eq_true, decide_eq_true_eq]; rintro ⟨n, hn, hx⟩; have := hl n hn; omega)] at t
    exact t

end Go
end Jin
