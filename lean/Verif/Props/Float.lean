import Verif.Proof.Float
import Verif.Props.Utf8Make
import Verif.Props.Add
import Verif.Props.Set
import Verif.Props.Rfc
import Verif.Props.Make
import Verif.Props.Number
/-!
# Property C128: floating point numbers

`Model/Float` says what `strconv` does with 64-bit floating point numbers. With it the hypotheses about `strconv` in C12, C47 and C116
are theorems: what is written is read back, it is a number of RFC 8259, and what is read is the nearest number.
-/

namespace Jin
open Spec

/-- Not a NaN. -/
def isNumberOrInf (x : UInt64) : Prop := x.toNat % 2 ^ 63 ≤ noFloat
/-- A number: not a NaN and not an infinity. -/
def isFinite (x : UInt64) : Prop := x.toNat % 2 ^ 63 < noFloat

instance (x : UInt64) : Decidable (isNumberOrInf x) := inferInstanceAs (Decidable (_ ≤ _))
instance (x : UInt64) : Decidable (isFinite x) := inferInstanceAs (Decidable (_ < _))

/-- **C128** What `FormatFloat` writes, `ParseFloat` reads back, the infinities included. -/
theorem C128_back (x : UInt64) (h : isNumberOrInf x) : parseFloat (formatFloat x) = some x := float_back x h

theorem format_finite {x : UInt64} (h : isFinite x) : ∃ c f, formatFloat x = (if decide (2 ^ 63 ≤ x.toNat) then [45] else []) ++ positional c f := by
  unfold isFinite noFloat at h
  refine ⟨(shortest (x.toNat % 2 ^ 63)).1, (shortest (x.toNat % 2 ^ 63)).2, ?_⟩
  unfold formatFloat infBits
  simp only
  rw [if_neg (by omega), if_neg (by omega)]

/-- **C128** A number is written as a number of RFC 8259. -/
theorem C128_number (x : UInt64) (h : isFinite x) : rnumber (formatFloat x) = true := by
  obtain ⟨c, f, e⟩ := format_finite h
  rw [e]
  exact positional_number _ c f

/-- **C128** … without an exponent. -/
theorem C128_no_exponent (x : UInt64) (h : isFinite x) : 101 ∉ formatFloat x ∧ 69 ∉ formatFloat x := by
  obtain ⟨c, f, e⟩ := format_finite h
  have key : ∀ d ∈ formatFloat x, isNumDigit d = true ∨ d = 45 ∨ d = 46 := by
    rw [e]
    intro d hd
    rcases List.mem_append.1 hd with hd | hd
    · split at hd
      · exact .inr (.inl (by simpa using hd))
      · cases hd
    · unfold positional at hd
      rcases List.mem_append.1 hd with hd | hd
      · exact .inl (digits_all.1 (.inr (natDigits_digits _).1) d hd)
      · split at hd
        · cases hd
        · rcases List.mem_cons.1 hd with hd | hd
          · exact .inr (.inr hd)
          · exact .inl (pad_all _ _ d hd)
  constructor <;> intro hm <;> have := key _ hm <;> revert this <;> decide

/-- What is not a number is written as one of three words. -/
theorem format_other {x : UInt64} (h : ¬ isFinite x) : formatFloat x = str "NaN" ∨ formatFloat x = str "+Inf" ∨ formatFloat x = str "-Inf" := by
  unfold isFinite noFloat at h
  unfold formatFloat infBits
  simp only
  split
  · exact .inl rfl
  · rw [if_pos (by omega)]
    split
    · exact .inr (.inr rfl)
    · exact .inr (.inl rfl)

/-- **C128** Whatever is written has no structural byte, … -/
theorem C128_plain (x : UInt64) : (Json.lit (formatFloat x)).wf := by
  by_cases h : isFinite x
  · exact rnumber_wf (C128_number x h)
  · rcases format_other h with e | e | e <;> rw [e] <;> decide +kernel

/-- … and is ASCII: the hypothesis of C116, C121 and C122. -/
theorem C128_utf8 (x : UInt64) : Utf8 (formatFloat x) := by
  refine .ascii ?_
  by_cases h : isFinite x
  · obtain ⟨n, hn, e⟩ := rnumber_parts (C128_number x h)
    obtain ⟨c, f, e⟩ := format_finite h
    rw [e]
    intro d hd
    rcases List.mem_append.1 hd with hd | hd
    · split at hd
      · rw [List.mem_singleton] at hd; rw [hd]; decide
      · cases hd
    · unfold positional at hd
      have dig : ∀ d : UInt8, isNumDigit d = true → d < 128 := by
        intro d hd
        obtain ⟨-, h2⟩ := numDigit_iff.1 hd
        exact UInt8.lt_of_le_of_lt h2 (by decide)
      rcases List.mem_append.1 hd with hd | hd
      · exact dig d (digits_all.1 (.inr (natDigits_digits _).1) d hd)
      · split at hd
        · cases hd
        · rcases List.mem_cons.1 hd with hd | hd
          · rw [hd]; decide
          · exact dig d (pad_all _ _ d hd)
  · rcases format_other h with e | e | e <;> rw [e] <;> decide +kernel

/-! ### Calls -/

section
variable (d : Doc) (p : List Text)

theorem content_lit (t : Text) : (Json.lit t).content = t := render_lit t

theorem getFloat_of {t : Bytes} {p : List Text} {x : UInt64} (hx : isNumberOrInf x) (h : Get t p = .ok (Json.lit (formatFloat x)).content) :
    GetFloat goFloats t p = .ok x := by
  unfold GetFloat GetString
  rw [h, content_lit]
  have e : goFloats.parse (formatFloat x) = some x := C128_back x hx
  simp only [Out.bind_ok, e]

/-- **C128** `SetFloat` and then `GetFloat` return the same 64 bits. -/
theorem C128_set (w : Json) (x : UInt64) (hd : d.wf) (hp : p ≠ []) (h : d.get? p = some w) (hx : isNumberOrInf x) :
    ∃ t, SetFloat goFloats d.render x p = .done t none ∧ GetFloat goFloats t p = .ok x :=
  C12_setFloat_getFloat goFloats x d p w hd hp h (C128_plain x) (C128_back x hx)

/-- **C128** `AddFloat` puts the number behind the others. -/
theorem C128_add (g : Text) (es : List (Elem Json)) (x : UInt64) (hd : d.wf) (h : d.get? p = some (.arr g es)) (hx : isNumberOrInf x) :
    ∃ t, AddFloat goFloats d.render x p = .done t none ∧ ∀ q, readIndex q = some es.length → GetFloat goFloats t (p ++ [q]) = .ok x := by
  obtain ⟨w', h1, -, -, -, h2, -⟩ := C20_add d p g es (.lit (formatFloat x)) hd h (C128_plain x)
  rw [render_lit] at h1
  exact ⟨_, h1, fun q hq => getFloat_of hx (h2 q hq)⟩

/-- **C128** What `AddKeyValueFloat` has put under its key, `GetFloat` returns. -/
theorem C128_addKeyValue (g k : Text) (ms : List (Member Json)) (x : UInt64) (hd : d.wf) (h : d.get? p = some (.obj g ms)) (hk : strOk k)
    (hx : isNumberOrInf x) (t : Bytes) (ha : AddKeyValueFloat goFloats d.render k x p = .done t none) : GetFloat goFloats t (p ++ [k]) = .ok x := by
  unfold AddKeyValueFloat addKV at ha
  split at ha
  · cases ha
  · simp only [Mut.bindOut] at ha
    have hnew : ∀ m ∈ ms, m.key ≠ k := by
      intro m hm e
      rw [C22_addKeyValue_exists d p g ms k _ hd h ⟨m, hm, e⟩] at ha
      cases ha
    have ha : AddKeyValue d.render k (some (Json.lit (formatFloat x)).render) p = .done t none := by rw [render_lit]; exact ha
    rcases C21_all_or_nothing_partial d p g ms k (.lit (formatFloat x)) hd h hnew hk (C128_plain x) t none ha with ⟨h1, -⟩ | ⟨-, w', -, -, -, -, h2⟩
    · exact absurd rfl h1
    · exact getFloat_of hx h2

/-- **C128** `InsertFloat`, where `Insert` gives JSON (C23), puts the number at its index. -/
theorem C128_insert (g : Text) (es : List (Elem Json)) (n : Nat) (x : UInt64) (hd : d.wf) (h : d.get? p = some (.arr g es)) (hn : n < es.length)
    (hb : (n : Int) ≤ 9223372036854775807) (hok : n + 1 < es.length ∨ n = 0 ∨ ∃ e, es[n]? = some e ∧ e.l = []) (hx : isNumberOrInf x) :
    ∃ t, InsertFloat goFloats d.render n x p = .done t none ∧ ∀ q, readIndex q = some n → GetFloat goFloats t (p ++ [q]) = .ok x := by
  obtain ⟨w', h1, -, -, -, h2, -⟩ := C23_insert_partial d p g es n (.lit (formatFloat x)) hd h hn hb (C128_plain x) hok
  rw [render_lit] at h1
  refine ⟨_, ?_, fun q hq => getFloat_of hx (h2 q hq)⟩
  unfold InsertFloat insertText
  rw [if_neg (by omega)]
  exact h1

/-- **C128** In a text of RFC 8259, `SetFloat` and `AddFloat` of a number leave such a text, and so does `AddKeyValueFloat` under a string of the RFC. -/
theorem C128_rfc (x : UInt64) (hd : d.wf) (hs : d.root.strict) (hx : isFinite x) :
    (∀ w, p ≠ [] → d.get? p = some w → ∃ t, SetFloat goFloats d.render x p = .done t none ∧ RText t) ∧
    (∀ g es, d.get? p = some (.arr g es) → ∃ t, AddFloat goFloats d.render x p = .done t none ∧ RText t) ∧
    (∀ g ms k t er, d.get? p = some (.obj g ms) → rchars k → AddKeyValueFloat goFloats d.render k x p = .done t er → RText t) := by
  have hv : RValue (formatFloat x) := .number (C128_number x hx)
  refine ⟨fun w hp h => C63_set d p w _ hd hs hp h hv, fun g es h => C63_add d p g es _ hd hs h hv, fun g ms k t er h hk ha => ?_⟩
  unfold AddKeyValueFloat addKV at ha
  split at ha
  · cases ha; exact rtext_doc hd hs
  · exact C63_addKeyValue d p g ms k _ hd hs h hk hv t er ha

theorem two_pow_cast (n : Nat) : (2 ^ n : Int) = ((2 ^ n : Nat) : Int) := (Int.natCast_pow 2 n).symm

theorem apart_abs (a b : Nat) : ((a : Int) - b).natAbs = apart a b := by unfold apart; omega

theorem floatUnits_eq (b : Nat) : floatUnits b = unitsOf b := by
  unfold floatUnits unitsOf; rw [Nat.add_comm (2 ^ 52)]

theorem floatError_eq (num den b : Nat) : floatError num den b = apart (unitsOf b * den) (num * floatUnit) := by
  have et : (2 ^ 1074 : Int) = (floatUnit : Int) := two_pow_cast 1074
  unfold floatError
  rw [floatUnits_eq, et, ← Int.natCast_mul, ← Int.natCast_mul, apart_abs]

theorem nearest_of {num den : Nat} (hd : 0 < den) (h : num < floatLimit * den) : IsNearest num den (nearBits num den) := by
  refine ⟨near_small hd h, fun b' hb' hne => ?_⟩
  rw [floatError_eq, floatError_eq]
  exact near_nearest hd hne

theorem shortest_text {x : UInt64} (h : isFinite x) :
    (numOf (decide (2 ^ 63 ≤ x.toNat)) (shortest (x.toNat % 2 ^ 63)).1 (shortest (x.toNat % 2 ^ 63)).2).text = formatFloat x := by
  unfold isFinite noFloat at h
  have h1 : ¬ infBits < x.toNat % 2 ^ 63 := by unfold infBits; omega
  have h2 : ¬ x.toNat % 2 ^ 63 = infBits := by unfold infBits; omega
  rw [numOf_text]
  unfold formatFloat
  simp only
  rw [if_neg h1, if_neg h2]

/-- The bits of a number without exponent. -/
theorem parse_plain {x : UInt64} {n : NumText} (hn : n.wf) (he : n.exp = none) (h : parseFloat n.text = some x) :
    nearBits n.digits (10 ^ n.fraction.length) = x.toNat % 2 ^ 63 := by
  have hexpo : n.expo = 0 := by unfold NumText.expo; rw [he]
  have hens : n.tens = 0 := by unfold NumText.tens; rw [hexpo]; simp
  have htenths : n.tenths = n.fraction.length := by unfold NumText.tenths; rw [hexpo]; simp
  have hb : ¬ n.tooBig := by
    intro hb
    unfold parseFloat at h
    rw [parse_exact n hn, (outOfRange_iff n hn (.inl (by omega))).2 hb] at h
    cases h
  have hpos : 0 < 10 ^ n.tenths := Nat.pow_pos (by decide)
  have hlt := near_small hpos (Nat.lt_of_not_le hb)
  rw [parse_nearest n hn (by omega) hb] at h
  have e := congrArg UInt64.toNat (Option.some.inj h)
  rw [UInt64.toNat_ofNat'] at e
  rw [hens, htenths, Nat.pow_zero, Nat.mul_one] at e hlt
  unfold infBits at hlt
  generalize nearBits n.digits (10 ^ n.fraction.length) = b at *
  rw [← e]
  split <;> omega

/-- **C128** Of the numbers without exponent that are read as `x`, what is written for `x` has the fewest digits behind the point; if it has none there, it
ends in the most zeros; of those with as many digits behind the point, and as many zeros, it is the nearest to `x`; and of two equally near with a point
it is the one with an even last digit. -/
theorem C128_shortest (x : UInt64) (hx : isFinite x) :
    ∃ m : NumText, m.wf ∧ m.exp = none ∧ m.text = formatFloat x ∧ ∀ n : NumText, n.wf → n.exp = none → parseFloat n.text = some x →
      m.fraction.length ≤ n.fraction.length ∧
      (n.fraction = [] → ∀ i, 10 ^ i ∣ n.digits → 10 ^ i ∣ m.digits) ∧
      (n.fraction.length = m.fraction.length → (m.fraction = [] → ∀ i, 10 ^ i ∣ m.digits → 10 ^ i ∣ n.digits) →
        floatError m.digits (10 ^ m.fraction.length) (x.toNat % 2 ^ 63) ≤ floatError n.digits (10 ^ m.fraction.length) (x.toNat % 2 ^ 63)) ∧
      (n.fraction.length = m.fraction.length → m.fraction ≠ [] → n.digits ≠ m.digits →
        floatError m.digits (10 ^ m.fraction.length) (x.toNat % 2 ^ 63) = floatError n.digits (10 ^ m.fraction.length) (x.toNat % 2 ^ 63) →
          m.digits % 2 = 0) := by
  refine ⟨_, numOf_wf _ _ _, rfl, shortest_text hx, fun n hn he h => ?_⟩
  have hb := parse_plain hn he h
  rw [numOf_fraction, pad_length, numOf_digits]
  refine ⟨shortest_least hb, fun h0 i hi => ?_, fun hl hz => ?_, fun hl h0 hne heq => ?_⟩
  · rw [h0] at hb
    exact shortest_zeros hb hi
  · rw [floatError_eq, floatError_eq]
    rw [hl] at hb
    exact shortest_closest hb fun e => hz (by rw [e]; rfl)
  · rw [floatError_eq, floatError_eq] at heq
    rw [hl] at hb
    exact shortest_even hb (fun e => h0 (by rw [e]; rfl)) heq hne

/-- **C128** `GetFloat` of a number returns the nearest number of 64 bits, with its sign, unless the number is too large; then it returns an error.
(Exponents of `strconv` are cut off at 100000.) -/
theorem C128_nearest (n : NumText) (hd : d.wf) (hp : p ≠ []) (h : d.get? p = some (.lit n.text)) (hn : n.wf) (he : n.expo < 100000) :
    (¬ n.tooBig → ∃ b, IsNearest (n.digits * 10 ^ n.tens) (10 ^ n.tenths) b ∧
      ∃ x : UInt64, GetFloat goFloats d.render p = .ok x ∧ x.toNat = (if n.neg then 2 ^ 63 else 0) + b) ∧
    (n.tooBig → GetFloat goFloats d.render p = .err (.floatParse n.text)) := by
  have hc := C05_getFloat goFloats d p _ hd hp h
  rw [content_lit] at hc
  constructor
  · intro hb
    have hpos : 0 < 10 ^ n.tenths := Nat.pow_pos (by decide)
    have hlt : nearBits (n.digits * 10 ^ n.tens) (10 ^ n.tenths) < infBits := near_small hpos (Nat.lt_of_not_le hb)
    refine ⟨nearBits (n.digits * 10 ^ n.tens) (10 ^ n.tenths), nearest_of hpos (Nat.lt_of_not_le hb),
      UInt64.ofNat ((if n.neg then 2 ^ 63 else 0) + nearBits (n.digits * 10 ^ n.tens) (10 ^ n.tenths)), ?_, ?_⟩
    · have e : goFloats.parse n.text = _ := parse_nearest n hn he hb
      rw [hc, e]
    · rw [UInt64.toNat_ofNat']
      unfold infBits at hlt
      generalize nearBits (n.digits * 10 ^ n.tens) (10 ^ n.tenths) = b at *
      split <;> omega
  · intro hb
    have e : goFloats.parse n.text = none := by
      show parseFloat n.text = none
      unfold parseFloat
      rw [if_neg]
      rw [parse_exact n hn]
      simp [(outOfRange_iff n hn (.inl he)).2 hb]
    rw [hc, e]

end

/-- **C128** `ParseFloat` accepts what `Model/ParseFloat` says: the hypothesis of `C39_number_text`. -/
theorem C128_accepts (s : Bytes) : (goFloats.parse s).isSome = parseFloatOk s := by
  show (parseFloat s).isSome = _
  unfold parseFloat
  split <;> simp_all

theorem letter_tok (c : UInt8) (h : 97 ≤ lowerByte c ∧ lowerByte c ≤ 122) : tokByte c = true := by
  have : ∀ n : Fin 256, 97 ≤ lowerByte (UInt8.ofNat n) ∧ lowerByte (UInt8.ofNat n) ≤ 122 → tokByte (UInt8.ofNat n) = true := by decide +kernel
  have h' := this ⟨c.toNat, UInt8.toNat_lt c⟩
  simp only [UInt8.ofNat_toNat] at h'
  exact h' h

theorem numeral_tok (c : UInt8) (h : numeralByte c) : tokByte c = true := by
  have : ∀ n : Fin 256, isNumDigit (UInt8.ofNat n) = true ∨ (97 ≤ UInt8.ofNat n ∧ UInt8.ofNat n ≤ 102) ∨ (65 ≤ UInt8.ofNat n ∧ UInt8.ofNat n ≤ 70) ∨
      UInt8.ofNat n ∈ ([0x2E, 0x5F, 0x2B, 0x2D, 0x78, 0x58, 0x70, 0x50] : List UInt8) → tokByte (UInt8.ofNat n) = true := by decide +kernel
  have h' := this ⟨c.toNat, UInt8.toNat_lt c⟩
  simp only [UInt8.ofNat_toNat] at h'
  exact h' h

theorem word_tok {s w : Bytes} (h : s.map lowerByte = w) (hw : ∀ c ∈ w, 97 ≤ c ∧ c ≤ 122) : ∀ c ∈ s, tokByte c = true := by
  intro c hc
  exact letter_tok c (hw _ (h ▸ List.mem_map_of_mem hc))

/-- **C128** Whatever `ParseFloat` accepts has no structural byte: the hypothesis of C13, C44, C46 and C50. -/
theorem C128_accepts_plain (v : Bytes) (h : parseFloatOk v = true) : (Json.lit v).wf := by
  refine lit_wf.2 ⟨by rintro rfl; exact absurd h (by decide), List.all_eq_true.2 ?_⟩
  rcases C114_alphabet h with e | ⟨sign, r, rfl, hs, e⟩
  · exact word_tok e (by decide +kernel)
  · intro c hc
    rcases List.mem_append.1 hc with hc | hc
    · simp only [List.mem_cons, List.not_mem_nil, or_false] at hs
      rcases hs with rfl | rfl | rfl
      · cases hc
      · rw [List.mem_singleton] at hc; rw [hc]; decide
      · rw [List.mem_singleton] at hc; rw [hc]; decide
    · rcases e with e | e | e
      · exact word_tok e (by decide +kernel) c hc
      · exact word_tok e (by decide +kernel) c hc
      · exact numeral_tok c (e.1 c hc)

/-- The bits of `12.5`, `5`, `0.1`, `-1e23` and `-0`. -/
def Sample.floats : List (UInt64 × Bytes) :=
  [(0x4029000000000000, str "12.5"), (0x4014000000000000, str "5"), (0x3FB999999999999A, str "0.1"), (0xC4B52D02C7E14AF6, str "-100000000000000000000000"), (0x8000000000000000, str "-0")]

theorem Sample.floats_ok : ∀ x ∈ Sample.floats, isFinite x.1 ∧ formatFloat x.1 = x.2 ∧ parseFloat x.2 = some x.1 := by decide +kernel

/-- A case of the hypotheses of `C128_nearest`: the number `-1.5e3` of the sample document, which is read as the bits of `-1500`. -/
example : (∃ b, IsNearest 15000 10 b ∧ ∃ x : UInt64, GetFloat goFloats Sample.doc.render [str "o", str "r"] = .ok x ∧ x.toNat = 2 ^ 63 + b) ∧
    GetFloat goFloats Sample.doc.render [str "o", str "r"] = .ok 0xC097700000000000 := by
  have hn : (⟨true, str "1", some (str "5"), some ⟨0x65, [], str "3"⟩⟩ : NumText).wf :=
    ⟨by decide +kernel, by rintro f rfl'; cases rfl'; decide +kernel, by rintro x rfl'; cases rfl'; exact ⟨.inl rfl, .inl rfl, by decide +kernel⟩⟩
  refine ⟨?_, by decide +kernel⟩
  obtain ⟨b, h1, h2⟩ := (C128_nearest Sample.doc [str "o", str "r"] _ Sample.doc_wf (by decide) (by decide +kernel) hn (by decide +kernel)).1
    (by unfold NumText.tooBig; decide +kernel)
  have e1 : (⟨true, str "1", some (str "5"), some ⟨0x65, [], str "3"⟩⟩ : NumText).digits * 10 ^ (⟨true, str "1", some (str "5"), some ⟨0x65, [], str "3"⟩⟩ : NumText).tens = 15000 := by decide +kernel
  have e2 : 10 ^ (⟨true, str "1", some (str "5"), some ⟨0x65, [], str "3"⟩⟩ : NumText).tenths = 10 := by decide +kernel
  rw [e1, e2] at h1
  exact ⟨b, h1, h2⟩

/-- A case of the hypotheses of `C128_shortest`: `0.1000000000000000055` is read as the bits of which `0.1` is written. -/
example : ∃ m : NumText, m.wf ∧ m.exp = none ∧ m.text = str "0.1" ∧ m.fraction.length ≤ 19 := by
  have hn : (⟨false, str "0", some (str "1000000000000000055"), none⟩ : NumText).wf :=
    ⟨by decide +kernel, by rintro f rfl'; cases rfl'; decide +kernel, by rintro x rfl'; cases rfl'⟩
  obtain ⟨m, h1, h2, h3, h4⟩ := C128_shortest 0x3FB999999999999A (by decide +kernel)
  exact ⟨m, h1, h2, by rw [h3]; decide +kernel, Nat.le_trans (h4 _ hn rfl (by decide +kernel)).1 (by decide +kernel)⟩

/-- … and `99999999999999991611392`, the exact value of those bits, is read as the bits of which `100000000000000000000000` is written. -/
example : ∃ m : NumText, m.text = str "100000000000000000000000" ∧ ∀ i, 10 ^ i ∣ 99999999999999991611392 → 10 ^ i ∣ m.digits := by
  have hn : (⟨false, str "99999999999999991611392", none, none⟩ : NumText).wf :=
    ⟨by decide +kernel, (by rintro f rfl'; cases rfl'), (by rintro x rfl'; cases rfl')⟩
  have e : (⟨false, str "99999999999999991611392", none, none⟩ : NumText).digits = 99999999999999991611392 := by decide +kernel
  obtain ⟨m, h1, h2, h3, h4⟩ := C128_shortest 0x44B52D02C7E14AF6 (by decide +kernel)
  refine ⟨m, by rw [h3]; decide +kernel, ?_⟩
  rw [← e]
  exact (h4 _ hn rfl (by decide +kernel)).2.1 rfl

/-- … and `1125899906842624.2` and `1125899906842624.3` are equally near to `1125899906842624.25`, of which the first is written. -/
example : ∃ m : NumText, m.text = str "1125899906842624.2" ∧ (m.fraction.length = 1 → m.fraction ≠ [] → m.digits ≠ 11258999068426243 →
    floatError m.digits (10 ^ m.fraction.length) 0x4310000000000001 = floatError 11258999068426243 (10 ^ m.fraction.length) 0x4310000000000001 → m.digits % 2 = 0) ∧
    floatError 11258999068426242 10 0x4310000000000001 = floatError 11258999068426243 10 0x4310000000000001 := by
  have hn : (⟨false, str "1125899906842624", some (str "3"), none⟩ : NumText).wf :=
    ⟨by decide +kernel, (by rintro f rfl'; cases rfl'; decide +kernel), (by rintro x rfl'; cases rfl')⟩
  have e : (⟨false, str "1125899906842624", some (str "3"), none⟩ : NumText).digits = 11258999068426243 := by decide +kernel
  obtain ⟨m, h1, h2, h3, h4⟩ := C128_shortest 0x4310000000000001 (by decide +kernel)
  refine ⟨m, by rw [h3]; decide +kernel, ?_, by decide +kernel⟩
  intro a b c heq
  rw [← e] at c heq
  exact (h4 _ hn rfl (by decide +kernel)).2.2.2 (by rw [a]; decide +kernel) b (Ne.symm c) (by
    rw [show (0x4310000000000001 : UInt64).toNat % 2 ^ 63 = 0x4310000000000001 by decide +kernel]; exact heq)

/-- **C128 does not hold of what is not a number**: `SetFloat` of NaN or of an infinity reports no error and leaves a text that is not JSON; NaNs other
than one do not come back. -/
theorem C128_fails : SetFloat goFloats (str "{\"a\":1}") 0x7FF0000000000000 [str "a"] = .done (str "{\"a\":+Inf}") none ∧
    SetFloat goFloats (str "{\"a\":1}") 0xFFF8000000000000 [str "a"] = .done (str "{\"a\":NaN}") none ∧
    GetFloat goFloats (str "{\"a\":NaN}") [str "a"] = .ok 0x7FF8000000000001 ∧
    ¬ RValue (str "+Inf") ∧ ¬ RValue (str "NaN") := by
  refine ⟨by decide +kernel, by decide +kernel, by decide +kernel, ?_, ?_⟩
  · exact not_value (by decide +kernel) (by decide +kernel) (by decide +kernel) (by decide +kernel) (by decide +kernel)
  · exact not_value (by decide +kernel) (by decide +kernel) (by decide +kernel) (by decide +kernel) (by decide +kernel)

/-- **C47 does not hold**, with the numbers themselves: `MakeArrayFloat` of `12.5` is `[]`, and of `5` it panics. -/
theorem C128_makeArray_fails : MakeArrayFloat goFloats (some [0x4029000000000000]) = .ok (str "[]") ∧
    MakeArrayFloat goFloats (some [0x4014000000000000]) = .panic := by decide +kernel

end Jin
