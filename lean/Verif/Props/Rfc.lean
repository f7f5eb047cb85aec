import Verif.Proof.Rfc
import Verif.Proof.Unique
import Verif.Props.Set
import Verif.Props.Delete
import Verif.Props.SetKey
import Verif.Props.Array

/-!
# Props.Rfc — C60, C62, C63

RFC 8259 as a grammar of byte strings (`Spec.Rfc`), the trees that stand for it, and what
the writers produce in terms of that grammar.
-/

namespace Jin
open Spec

/-! ### C62 -/

/-- **C62** A byte string is a JSON text of RFC 8259 exactly if it is the text of a
well-formed document whose scalars and strings are those of the RFC.  So the theorems about
all well-formed documents cover every RFC text. -/
theorem C62_covers (t : Text) : RText t ↔ ∃ d : Doc, d.wf ∧ d.root.strict ∧ d.render = t := rtext_iff

/-- **C62** The same for values. -/
theorem C62_values (t : Text) : RValue t ↔ ∃ j : Json, j.wf ∧ j.strict ∧ j.render = t := rvalue_iff

/-- **C62** A text has one tree, up to the gap of containers that are not empty, which is not
part of the text: two well-formed documents with the same text are the same, and a path leads
to the same value in both.  So what a path leads to is a matter of the bytes alone. -/
theorem C62_unique (d e : Doc) (hd : d.wf) (he : e.wf) (h : d.render = e.render) :
    d.lead = e.lead ∧ d.root.norm = e.root.norm ∧ d.trail = e.trail ∧
      ∀ p, (d.get? p).map Json.norm = (e.get? p).map Json.norm ∧ (d.get? p).map Json.render = (e.get? p).map Json.render := by
  obtain ⟨h1, h2, h3⟩ := doc_unique hd he h
  refine ⟨h1, h2, h3, fun p => ?_⟩
  have hg : (d.get? p).map Json.norm = (e.get? p).map Json.norm := by
    simp only [Doc.get?, ← norm_get, h2]
  refine ⟨hg, ?_⟩
  have := congrArg (Option.map Json.render) hg
  simpa [Function.comp_def, norm_render] using this

/-- Two trees for one text, which differ in the gap. -/
example : (⟨[], .arr [] [⟨[], .lit (str "1"), []⟩], []⟩ : Doc).render = (⟨[], .arr [0x20] [⟨[], .lit (str "1"), []⟩], []⟩ : Doc).render ∧
    (⟨[], .arr [] [⟨[], .lit (str "1"), []⟩], []⟩ : Doc).wf ∧ (⟨[], .arr [0x20] [⟨[], .lit (str "1"), []⟩], []⟩ : Doc).wf := by decide +kernel

theorem Sample.strict : Sample.doc.root.strict := by decide +kernel

/-- The sample document is an RFC text. -/
example : RText Sample.doc.render := (C62_covers _).2 ⟨_, Sample.doc_wf, Sample.strict, rfl⟩

/-! ### C60 -/

theorem isInt_iff (s : Text) : isInt s = true ↔ ∃ n, readInt s = some n ∧ -2147483648 ≤ n ∧ n ≤ 2147483647 := by
  obtain ⟨r, hr⟩ : ∃ r : Option Int, ∀ b, parseIntBits b s =
      match r with
      | none => none
      | some v => if -(2 ^ (b - 1) : Int) ≤ v ∧ v < 2 ^ (b - 1) then some v else none :=
    ⟨_, fun b => rfl⟩
  rw [← atoi_eq, isInt, Option.isSome_iff_exists, atoi, hr, hr]
  have e1 : (2 : Int) ^ (32 - 1) = 2147483648 := by decide
  have e2 : (2 : Int) ^ (64 - 1) = 9223372036854775808 := by decide
  rw [e1, e2]
  cases r with
  | none => simp
  | some v =>
    simp only
    constructor
    · rintro ⟨n, h⟩
      split at h
      · rename_i hv
        cases h
        exact ⟨v, by rw [if_pos (by omega)], by omega, by omega⟩
      · cases h
    · rintro ⟨n, h, h1, h2⟩
      split at h
      · cases h
        exact ⟨v, by rw [if_pos (by omega)]⟩
      · cases h

/-- What `formatType` writes without quotes: what `strconv` reads as a 32-bit integer, unless
it has several digits and begins with `0`; what `strconv.ParseFloat` accepts otherwise; and
what is wrapped in brackets or braces. -/
def Raw (isFloat : Bytes → Bool) (s : Text) : Prop :=
  (∃ n, readInt s = some n ∧ -2147483648 ≤ n ∧ n ≤ 2147483647) ∧ ¬ (s.head? = some 0x30 ∧ 1 < s.length) ∨
  s ≠ [] ∧ ¬ (∃ n, readInt s = some n ∧ -2147483648 ≤ n ∧ n ≤ 2147483647) ∧ isFloat s ∨
  s.head? = some 0x5B ∧ s.getLast? = some 0x5D ∨
  s.head? = some 0x7B ∧ s.getLast? = some 0x7D

theorem numByte_plain {s s' : NumSt} {c : UInt8} (h : s.step c = some s') : 0x20 ≤ c ∧ c ≠ 0x22 ∧ c ≠ 0x5C := by
  have dig : isNumDigit c → 0x20 ≤ c ∧ c ≠ 0x22 ∧ c ≠ 0x5C := by
    intro hd
    have h1 : (0x30 : UInt8) ≤ c := by
      unfold isNumDigit at hd; simp only [Bool.and_eq_true, decide_eq_true_eq] at hd; exact hd.1
    refine ⟨UInt8.le_trans (by decide) h1, ?_, ?_⟩ <;> rintro rfl <;> revert hd <;> decide
  cases s <;> simp only [NumSt.step] at h <;> repeat' split at h
  all_goals first
    | (cases h; done)
    | (rename_i g; exact dig g)
    | (rename_i g; simp only [Bool.or_eq_true, beq_iff_eq] at g; rcases g with rfl | rfl <;> decide)
    | (rename_i g; simp only [beq_iff_eq] at g; subst g; decide)

theorem rchars_plain {c : UInt8} {r : Text} (h1 : 0x20 ≤ c) (h2 : c ≠ 0x22) (h3 : c ≠ 0x5C) : rchars (c :: r) = rchars r := by
  rw [rchars]
  · simp [h1, h2, h3]
  · intro a b c d r hc; exact absurd hc h3
  · intro c r hc; exact absurd hc h3

theorem run_chars : ∀ {t : Text} {s : NumSt}, s.run t → rchars t
  | [], _, _ => rfl
  | c :: r, s, h => by
    simp only [NumSt.run] at h
    split at h
    · rename_i s' hs
      obtain ⟨h1, h2, h3⟩ := numByte_plain hs
      rw [rchars_plain h1 h2 h3]
      exact run_chars h
    · exact absurd h (by simp)

/-- The four shapes of a value. -/
theorem rvalue_shape {t : Text} (h : RValue t) :
    (rname t ∨ rnumber t ∧ rchars t) ∨ t.head? = some 0x22 ∧ t.getLast? = some 0x22 ∨
    t.head? = some 0x5B ∧ t.getLast? = some 0x5D ∨ t.head? = some 0x7B ∧ t.getLast? = some 0x7D := by
  have last : ∀ (a b : UInt8) (t : Text), (a :: (t ++ [b])).getLast? = some b := by
    intro a b t; rw [← List.cons_append, List.getLast?_append]; rfl
  cases h with
  | name h => exact .inl (.inl h)
  | number h => exact .inl (.inr ⟨h, run_chars h⟩)
  | string h => exact .inr (.inl ⟨rfl, last _ _ _⟩)
  | emptyArray h => exact .inr (.inr (.inl ⟨rfl, last _ _ _⟩))
  | array h => exact .inr (.inr (.inl ⟨rfl, last _ _ _⟩))
  | emptyObject h => exact .inr (.inr (.inr ⟨rfl, last _ _ _⟩))
  | object h => exact .inr (.inr (.inr ⟨rfl, last _ _ _⟩))

/-- `formatType` case by case. -/
theorem formatType_cases (isFloat : Bytes → Bool) (s : Text) :
    (Raw isFloat s ∧ formatType isFloat s = s) ∨
    (¬ Raw isFloat s ∧ (rname s ∨ s.head? = some 0x22 ∧ s.getLast? = some 0x22) ∧ formatType isFloat s = s) ∨
    (¬ Raw isFloat s ∧ ¬ rname s ∧ ¬ (s.head? = some 0x22 ∧ s.getLast? = some 0x22) ∧ formatType isFloat s = quote s) := by
  have hname : rname s ↔ isBool s ∨ s = bNull := by
    simp only [rname, isBool, bTrue, bFalse, bNull, Bool.or_eq_true, beq_iff_eq]
    constructor
    · rintro ((h | h) | h) <;> simp [h]
    · rintro ((h | h) | h) <;> simp [h]
  unfold Raw
  rw [← isInt_iff]
  cases s with
  | nil =>
    have : ¬ isInt [] := by decide
    simp [formatType, quote, rname, this]
  | cons c r =>
    simp only [formatType, List.head?_cons, Option.some.injEq, List.length_cons]
    by_cases hb : isBool (c :: r)
    · rw [if_pos hb]
      by_cases hr : Raw isFloat (c :: r)
      · unfold Raw at hr; rw [← isInt_iff] at hr
        exact .inl ⟨by simpa using hr, rfl⟩
      · unfold Raw at hr; rw [← isInt_iff] at hr
        simp only [List.head?_cons, Option.some.injEq, List.length_cons] at hr
        exact .inr (.inl ⟨hr, .inl (hname.2 (.inl hb)), rfl⟩)
    · rw [if_neg hb]
      by_cases hi : isInt (c :: r)
      · rw [if_pos hi]
        have hn : ∀ {x : UInt8}, tokByte x = false → c ≠ x := by
          rintro x hx rfl
          obtain ⟨n, hn⟩ := Option.isSome_iff_exists.1 hi
          have := (parseIntBits_tok hn).2
          simp [hx] at this
        split
        · rename_i h0
          simp only [Bool.and_eq_true, beq_iff_eq, decide_eq_true_eq] at h0
          right; right
          refine ⟨?_, ?_, ?_, rfl⟩
          · rintro (h | h | h | h)
            · exact h.2 (by simp [h0.1, h0.2])
            · exact h.2.1 hi
            · exact hn (by decide) h.1
            · exact hn (by decide) h.1
          · rw [hname]
            rintro (h | h)
            · exact hb h
            · rw [bNull] at h; simp only [List.cons.injEq] at h; rw [h0.1] at h; exact absurd h.1 (by decide)
          · rintro ⟨h, -⟩; exact hn (by decide) h
        · rename_i h0
          refine .inl ⟨.inl ⟨hi, ?_⟩, rfl⟩
          rintro ⟨h1, h2⟩
          exact h0 (by simp only [Bool.and_eq_true, beq_iff_eq, decide_eq_true_eq]; exact ⟨h1, by simpa using h2⟩)
      · rw [if_neg hi]
        split
        · rename_i hfl; exact .inl ⟨.inr (.inl ⟨by simp, hi, hfl⟩), rfl⟩
        · rename_i hfl
          have raw : Raw isFloat (c :: r) ↔ c = 0x5B ∧ (c :: r).getLast? = some 0x5D ∨ c = 0x7B ∧ (c :: r).getLast? = some 0x7D := by
            unfold Raw; rw [← isInt_iff]
            simp [hi, hfl]
          unfold Raw at raw; rw [← isInt_iff] at raw
          simp only [List.head?_cons, Option.some.injEq, List.length_cons] at raw
          rw [raw]
          split
          · rename_i h
            rw [beq_iff_eq] at h
            right; left
            refine ⟨?_, .inl (hname.2 (.inr h)), rfl⟩
            rw [bNull] at h; simp only [List.cons.injEq] at h
            rw [h.1]; simp
          · rename_i hnull
            have hnn : ¬ rname (c :: r) := by
              rw [hname]; rintro (h | h)
              · exact hb h
              · exact hnull (by simp [h])
            split
            · rename_i h
              simp only [Bool.and_eq_true, beq_iff_eq] at h
              right; left
              exact ⟨by rw [h.1]; simp, .inr h, rfl⟩
            · rename_i hq
              split
              · rename_i h
                simp only [Bool.and_eq_true, beq_iff_eq] at h
                exact .inl ⟨.inl h, rfl⟩
              · rename_i h1
                split
                · rename_i h
                  simp only [Bool.and_eq_true, beq_iff_eq] at h
                  exact .inl ⟨.inr h, rfl⟩
                · rename_i h2
                  simp only [Bool.and_eq_true, beq_iff_eq] at h1 h2 hq
                  exact .inr (.inr ⟨fun h => h.elim h1 h2, hnn, hq, rfl⟩)

/-- **C60, exact** For a string `s` that is RFC string content or an RFC value, what
`formatType` writes is an RFC value unless it writes `s` without quotes and `s` is none. -/
theorem C60_exact (isFloat : Bytes → Bool) (s : Text) (hs : rchars s ∨ RValue s) :
    RValue (formatType isFloat s) ↔ (Raw isFloat s → RValue s) := by
  rcases formatType_cases isFloat s with ⟨hr, he⟩ | ⟨hr, hn, he⟩ | ⟨hr, h1, h2, he⟩
  · rw [he]; exact ⟨fun h _ => h, fun h => h hr⟩
  · rw [he]
    refine ⟨fun h _ => h, fun _ => ?_⟩
    rcases hn with hn | hn
    · exact .name hn
    · rcases hs with hs | hs
      · cases s with
        | nil => simp at hn
        | cons c r =>
          have : c = 0x22 := by simpa using hn.1
          subst this
          exact absurd (rchars_strOk _ hs) (by simp [strOk])
      · exact hs
  · rw [he]
    refine ⟨fun _ h => absurd h hr, fun _ => ?_⟩
    have hc : rchars s := by
      rcases hs with hs | hs
      · exact hs
      · rcases rvalue_shape hs with (h | h) | h | h | h
        · exact absurd h h1
        · exact h.2
        · exact absurd h h2
        · exact absurd (Or.inr (Or.inr (Or.inl h))) hr
        · exact absurd (Or.inr (Or.inr (Or.inr h))) hr
    exact RValue.string hc

/-- **C60 for values** Every RFC value given as a string is written as an RFC value,
whatever `strconv.ParseFloat` accepts. -/
theorem C60_value (isFloat : Bytes → Bool) (s : Text) (hs : RValue s) : RValue (formatType isFloat s) :=
  (C60_exact isFloat s (.inr hs)).2 fun _ => hs

/-- **C60 (partial)** RFC string content is written as an RFC value if it is not wrapped in
brackets or braces, and is an RFC number in case `strconv` reads it as a number.  Missing:
the strings `+5`, `-007`, `NaN`, `[x]` and the like, which are written without quotes
(`C60_fails`). -/
theorem C60_content_partial (isFloat : Bytes → Bool) (s : Text) (hs : rchars s)
    (h1 : ¬ (s.head? = some 0x5B ∧ s.getLast? = some 0x5D)) (h2 : ¬ (s.head? = some 0x7B ∧ s.getLast? = some 0x7D))
    (hi : ∀ n, readInt s = some n → s.head? ≠ some 0x30 → rnumber s) (hf : isFloat s → rnumber s) :
    RValue (formatType isFloat s) := by
  refine (C60_exact isFloat s (.inl hs)).2 ?_
  rintro (⟨⟨n, hn, -⟩, h0⟩ | ⟨-, -, h⟩ | h | h)
  · by_cases hz : s.head? = some 0x30
    · cases s with
      | nil => simp at hz
      | cons c r =>
        have hz : c = 0x30 := by simpa using hz
        have hr : r = [] := by
          cases r with
          | nil => rfl
          | cons d r => exact absurd ⟨by simp [hz], by simp⟩ h0
        subst hz hr
        exact .number (by decide)
    · exact .number (hi n hn hz)
  · exact .number (hf h)
  · exact absurd h h1
  · exact absurd h h2

/-- Content that looks like a number to neither, content that is a number, and a value. -/
example : RValue (formatType (fun _ => false) (str "it is \\u00e9")) ∧ RValue (formatType (fun _ => false) (str "-12")) ∧
    RValue (formatType (fun _ => false) (str "007")) ∧
    RValue (formatType (fun v => v == str "2.5e3") (str "2.5e3")) ∧ RValue (formatType (fun _ => false) (str "[ ]")) :=
  ⟨C60_content_partial _ _ (by decide +kernel) (by decide +kernel) (by decide +kernel)
      (fun n hn => by have : readInt (str "it is \\u00e9") = none := by decide +kernel
                      rw [this] at hn; cases hn) (by decide),
    C60_content_partial _ _ (by decide +kernel) (by decide +kernel) (by decide +kernel) (fun _ _ _ => by decide +kernel) (by decide),
    C60_content_partial _ _ (by decide +kernel) (by decide +kernel) (by decide +kernel) (fun _ _ h => absurd (by decide +kernel) h) (by decide),
    C60_content_partial _ _ (by decide +kernel) (by decide +kernel) (by decide +kernel)
      (fun _ _ _ => by decide +kernel) (fun _ => by decide +kernel),
    C60_value _ _ (by have := RValue.emptyArray (w := [0x20]) (by decide)
                      have e : str "[ ]" = 0x5B :: ([0x20] ++ [0x5D]) := by decide +kernel
                      rw [e]; exact this)⟩

/-- The first byte of a value. -/
theorem rvalue_first {t : Text} (h : RValue t) : ∃ c, t.head? = some c ∧
    (c ∈ [0x66, 0x6E, 0x74, 0x2D, 0x22, 0x5B, 0x7B] ∨ isNumDigit c) := by
  cases h with
  | name h =>
    simp only [rname, Bool.or_eq_true, beq_iff_eq] at h
    rcases h with (rfl | rfl) | rfl <;> exact ⟨_, rfl, by decide⟩
  | number h =>
    cases t with
    | nil => exact absurd h (by decide)
    | cons c r =>
      refine ⟨c, rfl, ?_⟩
      simp only [rnumber, NumSt.run] at h
      split at h
      · rename_i s' hs
        simp only [NumSt.step] at hs
        repeat' split at hs
        · rename_i h; rw [eq_of_beq h]; decide
        · rename_i h; rw [eq_of_beq h]; decide
        · rename_i h; exact .inr h
        · cases hs
      · exact absurd h (by simp)
  | string h => exact ⟨_, rfl, by decide⟩
  | emptyArray h => exact ⟨_, rfl, by decide⟩
  | array h => exact ⟨_, rfl, by decide⟩
  | emptyObject h => exact ⟨_, rfl, by decide⟩
  | object h => exact ⟨_, rfl, by decide⟩

/-- **C60 is false in general**: `+5` and `-007` are string content, and are written as they
are; neither is a JSON value. -/
theorem C60_fails : rchars (str "+5") ∧ (∀ isFloat, formatType isFloat (str "+5") = str "+5") ∧ ¬ RValue (str "+5") ∧
    rchars (str "-007") ∧ (∀ isFloat, formatType isFloat (str "-007") = str "-007") ∧ ¬ RValue (str "-007") := by
  have e1 : str "+5" = [43, 53] := by decide +kernel
  have e2 : str "-007" = [45, 48, 48, 55] := by decide +kernel
  have raw : ∀ s, isBool s = false → isInt s = true → s.head? ≠ some 48 → ∀ isFloat, formatType isFloat s = s := by
    intro s h1 h2 h3 isFloat
    cases s with
    | nil => exact absurd h2 (by decide)
    | cons c r =>
      simp only [formatType, h1, h2, Bool.false_eq_true, if_false, if_true]
      have : (c == 48) = false := by simpa using h3
      simp [this]
  rw [e1, e2]
  refine ⟨by decide, raw _ (by decide) (by decide) (by decide), ?_, by decide, raw _ (by decide) (by decide) (by decide), ?_⟩
  · intro h
    obtain ⟨c, hc, h⟩ := rvalue_first h
    simp only [List.head?_cons, Option.some.injEq] at hc
    subst hc
    exact absurd h (by decide)
  · intro h
    rcases rvalue_shape h with (h | h) | h | h | h
    · exact absurd h (by decide)
    · exact absurd h.1 (by decide)
    · exact absurd h.1 (by decide)
    · exact absurd h.1 (by decide)
    · exact absurd h.1 (by decide)

/-- **C60 is false in general**: the string content `[x]` is written as it is. -/
theorem C60_wrapped_fails : rchars (str "[x]") ∧ formatType (fun _ => false) (str "[x]") = str "[x]" ∧ ¬ RValue (str "[x]") := by
  refine ⟨by decide +kernel, by decide +kernel, ?_⟩
  intro h
  have e : str "[x]" = [91, 120, 93] := by decide +kernel
  rw [e] at h
  generalize hs : ([91, 120, 93] : Text) = s at h
  cases h with
  | name h => subst hs; exact absurd h (by decide)
  | number h => subst hs; exact absurd h (by decide)
  | string h => simp at hs
  | @emptyArray w h =>
    have : w = [120] := List.append_cancel_right (bs := [93]) (by simpa using hs.symm)
    subst this; exact absurd h (by decide)
  | @array t h =>
    have : t = [120] := List.append_cancel_right (bs := [93]) (by simpa using hs.symm)
    subst this
    have first : ∀ {l v r : Text}, Ws l → RValue v → ¬ [120] = l ++ (v ++ r) := by
      intro l v r hl hv he
      obtain ⟨c, hc, hm⟩ := rvalue_first hv
      cases l with
      | nil =>
        cases v with
        | nil => simp at hc
        | cons d v =>
          simp only [List.head?_cons, Option.some.injEq] at hc
          simp only [List.nil_append, List.cons_append, List.cons.injEq] at he
          rw [← hc, ← he.1] at hm
          exact absurd hm (by decide)
      | cons d l =>
        simp only [List.cons_append, List.cons.injEq] at he
        rw [← he.1] at hl
        simp [Ws, isWs] at hl
    generalize hx : ([120] : Text) = x at h
    cases h with
    | one h1 h2 h3 => exact first h1 h2 hx
    | more h1 h2 h3 h4 => exact first h1 h2 hx
  | emptyObject h => simp at hs
  | object h => simp at hs

/-! ### C63 -/

theorem rtext_doc {d : Doc} (hd : d.wf) (hs : d.root.strict) : RText d.render := (C62_covers _).2 ⟨d, hd, hs, rfl⟩

theorem set_strict {d : Doc} {p : List Text} {w x : Json} (hs : d.root.strict) (h : d.get? p = some w) (hx : x.strict) :
    (d.set p x).root.strict := strict_upd p (f := fun _ => x) hs h hx

/-- **C63** `Set` of an RFC value in an RFC text gives an RFC text. -/
theorem C63_set (d : Doc) (path : List Text) (w : Json) (v : Text) (hd : d.wf) (hs : d.root.strict) (hp : path ≠ [])
    (h : d.get? path = some w) (hv : RValue v) : ∃ json, Set d.render v path = .done json none ∧ RText json := by
  obtain ⟨x, h1, h2, rfl⟩ := (C62_values v).1 hv
  obtain ⟨a, b, -⟩ := C08_get_after_set d path w x hd hp h h1
  exact ⟨_, a, rtext_doc b (set_strict hs h h2)⟩

/-- **C63** `Delete` of a value that exists in an RFC text gives an RFC text. -/
theorem C63_delete (d : Doc) (p : List Text) (q : Text) (w c : Json) (hd : d.wf) (hs : d.root.strict) (hw : d.get? p = some w)
    (hc : d.get? (p ++ [q]) = some c) : ∃ json, Delete d.render (p ++ [q]) = .done json none ∧ RText json := by
  obtain ⟨n, w', h1, h2, h3, h4, h5, h6⟩ := C16_delete_exact d p q w c hd hw hc
  refine ⟨_, h3, rtext_doc h4 (set_strict hs hw ?_)⟩
  have hk : w.kind ≠ .scalar := by
    intro hk
    cases w <;> simp [Json.kind] at hk <;> simp [Json.slot?] at h1
  rw [strict_entries (by rw [h5]; exact hk), h6]
  intro e he
  exact (strict_entries hk).1 (strict_get p hs hw) e (List.mem_of_mem_eraseIdx he)

/-- **C63** `Add` of an RFC value to an array of an RFC text gives an RFC text. -/
theorem C63_add (d : Doc) (p : List Text) (g : Text) (es : List (Elem Json)) (v : Text) (hd : d.wf) (hs : d.root.strict)
    (h : d.get? p = some (.arr g es)) (hv : RValue v) : ∃ json, Add d.render v p = .done json none ∧ RText json := by
  obtain ⟨x, h1, h2, rfl⟩ := (C62_values v).1 hv
  obtain ⟨w', a1, a2, a3, a4, -⟩ := C20_add d p g es x hd h h1
  refine ⟨_, a1, rtext_doc a2 (set_strict hs h ?_)⟩
  rw [strict_entries (by rw [a3]; decide), a4]
  intro e he
  rcases List.mem_append.1 he with he | he
  · exact (strict_entries (by simp [Json.kind])).1 (strict_get p hs h) e he
  · simp only [List.mem_singleton] at he; subst he; exact h2

/-- **C63** Whatever `AddKeyValue` of an RFC value under an RFC string returns at an object of an
RFC text, with or without an error, is an RFC text. -/
theorem C63_addKeyValue (d : Doc) (p : List Text) (g : Text) (ms : List (Member Json)) (k v : Text) (hd : d.wf) (hs : d.root.strict)
    (h : d.get? p = some (.obj g ms)) (hk : rchars k) (hv : RValue v) (json : Bytes) (er : Option Err)
    (ha : AddKeyValue d.render k (some v) p = .done json er) : RText json := by
  obtain ⟨x, h1, h2, rfl⟩ := (C62_values v).1 hv
  by_cases hm : ∃ m ∈ ms, m.key = k
  · rw [C22_addKeyValue_exists d p g ms k _ hd h hm] at ha
    cases ha; exact rtext_doc hd hs
  · have hm : ∀ m ∈ ms, m.key ≠ k := fun m hm' hk => hm ⟨m, hm', hk⟩
    rcases C21_all_or_nothing_partial d p g ms k x hd h hm (rchars_strOk k hk) h1 json er ha with ⟨-, rfl⟩ | ⟨-, w', rfl, a2, a3, a4, -⟩
    · exact rtext_doc hd hs
    · refine rtext_doc a2 (set_strict hs h ?_)
      rw [strict_entries (by rw [a3]; decide), a4]
      intro e he
      rcases List.mem_append.1 he with he | he
      · exact (strict_entries (by simp [Json.kind])).1 (strict_get p hs h) e he
      · simp only [List.mem_singleton] at he; subst he; simp [Entry.strict, hk, h2]

/-- **C63** Whatever `SetKey` with an RFC string returns at a member of an RFC text, with or
without an error, is an RFC text. -/
theorem C63_setKey (d : Doc) (p : List Text) (q new : Text) (g : Text) (ms : List (Member Json)) (hd : d.wf) (hs : d.root.strict)
    (h : d.get? p = some (.obj g ms)) (hq : ∃ m ∈ ms, m.key = q) (hk : rchars new) (json : Bytes) (er : Option Err)
    (ha : SetKey d.render new (p ++ [q]) = .done json er) : RText json := by
  by_cases hm : new = [] ∨ ∃ m ∈ ms, m.key = new
  · rw [C25_setKey_exists d p q new g ms hd h hm] at ha
    cases ha; exact rtext_doc hd hs
  · have hm : ∀ m ∈ ms, m.key ≠ new := fun m hm' hk => hm (.inr ⟨m, hm', hk⟩)
    obtain ⟨n, hn⟩ : ∃ n, memberIdx ms q = some n := by
      obtain ⟨m, hm, hk⟩ := hq
      cases hi : memberIdx ms q with
      | some n => exact ⟨n, rfl⟩
      | none => exact absurd hk (memberIdx_none hi m hm)
    rcases C24_all_or_nothing_partial d p q new g ms n hd h hn hm (rchars_strOk new hk) json er ha with ⟨-, rfl⟩ | ⟨-, d', rfl, rfl, a3, -⟩
    · exact rtext_doc hd hs
    · refine rtext_doc a3 (set_strict hs h ?_)
      have hw := strict_get p hs h
      rw [Json.strict, strictMembers_iff] at hw ⊢
      intro m hm
      rcases mem_modify hm with hm | ⟨m0, hm0, rfl⟩
      · exact hw m hm
      · exact ⟨hk, (hw m0 (List.mem_of_getElem? hm0)).2⟩

/-- **C63 (partial)** `Insert` of an RFC value before an element of an array of an RFC text
gives an RFC text.  Missing: an insertion before the last element of several when whitespace
precedes that element (`C23_fails`). -/
theorem C63_insert_partial (d : Doc) (p : List Text) (g : Text) (es : List (Elem Json)) (n : Nat) (v : Text) (hd : d.wf) (hs : d.root.strict)
    (h : d.get? p = some (.arr g es)) (hn : n < es.length) (hb : (n : Int) ≤ 9223372036854775807) (hv : RValue v)
    (hok : n + 1 < es.length ∨ n = 0 ∨ ∃ e, es[n]? = some e ∧ e.l = []) :
    ∃ json, Insert d.render n v p = .done json none ∧ RText json := by
  obtain ⟨x, h1, h2, rfl⟩ := (C62_values v).1 hv
  obtain ⟨w', a1, a2, a3, a4, -⟩ := C23_insert_partial d p g es n x hd h hn hb h1 hok
  refine ⟨_, a1, rtext_doc a2 (set_strict hs h ?_)⟩
  have hw := (strict_entries (by simp [Json.kind])).1 (strict_get p hs h)
  rw [strict_entries (by rw [a3]; decide), a4]
  intro e he
  rcases List.mem_append.1 he with he | he
  · exact hw e (List.mem_of_mem_take he)
  · rcases List.mem_cons.1 he with rfl | he
    · exact h2
    · exact hw e (List.mem_of_mem_drop he)

/-- **C63 (partial)** `Store` of an RFC value under an RFC string at an object of an RFC text
gives an RFC text.  Missing: a fresh key in surroundings that violate `Doc.clear`. -/
theorem C63_store_partial (d : Doc) (p : List Text) (g : Text) (ms : List (Member Json)) (k v : Text) (hd : d.wf) (hs : d.root.strict)
    (h : d.get? p = some (.obj g ms)) (hk : rchars k) (hv : RValue v) (hok : (∃ m ∈ ms, m.key = k) ∨ d.clear p k) :
    ∃ json, Store d.render k (some v) p = .done json none ∧ RText json := by
  by_cases hm : ∃ m ∈ ms, m.key = k
  · rw [(C26_store_partial d p g ms k v hd h).1 hm]
    have : ∃ c, d.get? (p ++ [k]) = some c := by
      obtain ⟨m, hm, hk⟩ := hm
      cases hi : memberIdx ms k with
      | none => exact absurd hk (memberIdx_none hi m hm)
      | some n =>
        obtain ⟨xs, m, ys, e, hl, -⟩ := memberIdx_split hi
        unfold Doc.get? at h ⊢
        refine ⟨m.v, ?_⟩
        rw [get_append, h, Option.bind_some]
        simp only [Json.get?, Json.child?, hi, Option.bind_some]
        rw [e, ← hl]; simp
    obtain ⟨c, hc⟩ := this
    exact C63_set d _ c v hd hs (by simp) hc hv
  · have hm' : ∀ m ∈ ms, m.key ≠ k := fun m hm' hk => hm ⟨m, hm', hk⟩
    have hok := hok.resolve_left hm
    rw [(C26_store_partial d p g ms k v hd h).2 hm' hok]
    obtain ⟨x, h1, h2, rfl⟩ := (C62_values v).1 hv
    obtain ⟨w', a1, -⟩ := C21_addKeyValue_partial d p g ms k x hd h hm' (rchars_strOk k hk) h1 (.inr hok)
    exact ⟨_, a1, C63_addKeyValue d p g ms k _ hd hs h hk hv _ _ a1⟩

/-- **C60, through the writers** A string that `formatType` writes as an RFC value leaves an RFC
text an RFC text when it is set, added or made into an array. -/
theorem C60_writers (isFloat : Bytes → Bool) (s : Text) (hv : RValue (formatType isFloat s)) (d : Doc) (p : List Text) (w : Json)
    (hd : d.wf) (hs : d.root.strict) (h : d.get? p = some w) :
    (p ≠ [] → ∃ json, SetString isFloat d.render s p = .done json none ∧ RText json) ∧
    (w.kind = .arr → ∃ json, AddString isFloat d.render s p = .done json none ∧ RText json) ∧
    (∀ k json er, w.kind = .obj → rchars k → k ≠ [] → AddKeyValueString isFloat d.render k s p = .done json er → RText json) ∧
    (∀ k json er, w.kind = .obj → (∃ e ∈ w.entries, e.key = some k) → rchars k → StoreString isFloat d.render k s p = .done json er → RText json) := by
  refine ⟨fun hp => C63_set d p w _ hd hs hp h hv, fun hw => ?_, fun k json er hw hk hne ha => ?_, fun k json er hw he hk ha => ?_⟩
  · cases w <;> simp [Json.kind] at hw
    exact C63_add d p _ _ _ hd hs h hv
  · cases w <;> simp [Json.kind] at hw
    unfold AddKeyValueString at ha
    rw [if_neg (by simpa using hne)] at ha
    exact C63_addKeyValue d p _ _ k _ hd hs h hk hv json er ha
  · cases w <;> simp [Json.kind] at hw
    simp only [Json.entries, List.mem_map] at he
    obtain ⟨e, ⟨m, hm, rfl⟩, hke⟩ := he
    obtain ⟨j, h1, h2⟩ := C63_store_partial d p _ _ k _ hd hs h hk hv (.inl ⟨m, hm, by simpa [Entry.key] using hke⟩)
    unfold StoreString at ha
    rw [h1] at ha
    cases ha; exact h2

/-- **C60, through `MakeArrayString`**. -/
theorem C60_makeArray (isFloat : Bytes → Bool) (ss : List Text) (hne : ss ≠ []) (hv : ∀ s ∈ ss, RValue (formatType isFloat s)) :
    RValue (MakeArrayString isFloat (some ss)) := by
  obtain ⟨vs, h1, h2, h3⟩ : ∃ vs : List Json, (∀ v ∈ vs, v.wf) ∧ (∀ v ∈ vs, v.strict) ∧ ss.map (formatType isFloat) = vs.map Json.render := by
    clear hne
    induction ss with
    | nil => exact ⟨[], by simp, by simp, rfl⟩
    | cons s ss ih =>
      obtain ⟨vs, h1, h2, h3⟩ := ih fun s h => hv s (List.mem_cons_of_mem _ h)
      obtain ⟨x, g1, g2, g3⟩ := (C62_values _).1 (hv s List.mem_cons_self)
      exact ⟨x :: vs, by simp [g1]; exact h1, by simp [g2]; exact h2, by simp [h3, g3]⟩
  have hv : vs ≠ [] := by rintro rfl; exact hne (by simpa using h3)
  have e : MakeArrayString isFloat (some ss) = (⟨[], .arr [] (vs.map bare), []⟩ : Doc).render := by
    rw [← makeArr_render hv, ← h3]; rfl
  rw [e, Doc.render, C62_values]
  refine ⟨.arr [] (vs.map bare), (doc_wf.1 (bare_wf h1)).2.1, ?_, by simp⟩
  rw [Json.strict, strictElems_iff]
  intro e he
  obtain ⟨v, hv, rfl⟩ := List.mem_map.1 he
  exact h2 v hv

/-- The hypotheses on the sample document: values to set, delete, add to, rename. -/
example : RValue (str "true") ∧
    (∃ json, Set Sample.doc.render (str "true") Sample.toStr = .done json none ∧ RText json) ∧
    (∃ json, Delete Sample.doc.render [str "o", str "p"] = .done json none ∧ RText json) ∧
    (∃ json, Add Sample.doc.render (str "true") Sample.toArr = .done json none ∧ RText json) ∧
    (∃ json, AddString (fun _ => false) Sample.doc.render (str "x y") Sample.toArr = .done json none ∧ RText json) := by
  have ht : RValue (str "true") := .name (by decide +kernel)
  have hx : RValue (formatType (fun _ => false) (str "x y")) :=
    C60_content_partial _ _ (by decide +kernel) (by decide +kernel) (by decide +kernel)
      (fun n hn => by have : readInt (str "x y") = none := by decide +kernel
                      rw [this] at hn; cases hn) (by decide)
  obtain ⟨g, es, ha⟩ : ∃ g es, Sample.doc.get? Sample.toArr = some (.arr g es) := by
    cases hw : Sample.doc.get? Sample.toArr with
    | none => exact absurd hw (by decide +kernel)
    | some w =>
      cases w with
      | arr g es => exact ⟨g, es, rfl⟩
      | lit t => exact absurd (congrArg (Option.map Json.kind) hw) (by simp only [Option.map_some, Json.kind]; decide +kernel)
      | str t => exact absurd (congrArg (Option.map Json.kind) hw) (by simp only [Option.map_some, Json.kind]; decide +kernel)
      | obj g t => exact absurd (congrArg (Option.map Json.kind) hw) (by simp only [Option.map_some, Json.kind]; decide +kernel)
  refine ⟨ht, C63_set _ _ _ _ Sample.doc_wf Sample.strict (by decide) Sample.get_str ht,
    (by
      obtain ⟨w, hw⟩ := Option.ne_none_iff_exists'.1 (show Sample.doc.get? [str "o"] ≠ none by decide +kernel)
      obtain ⟨c, hc⟩ := Option.ne_none_iff_exists'.1 (show Sample.doc.get? ([str "o"] ++ [str "p"]) ≠ none by decide +kernel)
      exact C63_delete _ [str "o"] (str "p") _ _ Sample.doc_wf Sample.strict hw hc),
    C63_add _ _ _ _ _ Sample.doc_wf Sample.strict ha ht,
    (C60_writers _ _ hx _ _ _ Sample.doc_wf Sample.strict ha).2.1 rfl⟩

end Jin
