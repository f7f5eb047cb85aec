import Verif.Props.MakeFloat
import Verif.Props.Array
import Verif.Props.TextRead
/-!
# Property C142: arrays of floating point numbers survive
-/

namespace Jin
open Spec

/-- **C142** `GetFloatArray` reads from an array of the texts of numbers, or of infinities, the same 64 bits. -/
theorem C142_texts (xs : List UInt64) (hne : xs ≠ []) (hx : ∀ x ∈ xs, isNumberOrInf x) :
    GetFloatArray goFloats (MakeArrayBytes (some (xs.map formatFloat))) [] = .ok xs ∧
      ∀ (i : Nat) (x : UInt64), xs[i]? = some x → (i : Int) ≤ 9223372036854775807 →
        GetFloat goFloats (MakeArrayBytes (some (xs.map formatFloat))) [itoa i] = .ok x := by
  have e : MakeArrayBytes (some (xs.map formatFloat)) = (⟨[], .arr [] ((xs.map fun x => Json.lit (formatFloat x)).map bare), []⟩ : Doc).render := by
    rw [← makeArr_render (by simpa using hne)]
    simp [MakeArrayBytes, Function.comp_def]
  have hw : ∀ v ∈ xs.map fun x => Json.lit (formatFloat x), v.wf := by
    intro v hv
    obtain ⟨x, -, rfl⟩ := List.mem_map.1 hv
    exact C128_plain x
  rw [e]
  constructor
  · rw [C61_floats_partial goFloats (p := []) (g := []) (es := (xs.map fun x => Json.lit (formatFloat x)).map bare) (bare_wf hw) rfl (by simpa using hne)
      (fun _ => ⟨rfl, rfl⟩) bare_snug (fun e => (parseFloat e.v.content).getD 0)]
    · congr 1
      simp only [List.map_map]
      conv => rhs; rw [← List.map_id xs]
      refine List.map_congr_left fun x h => ?_
      simp [bare, content_lit, C128_back x (hx x h)]
    · intro e he
      simp only [List.map_map, List.mem_map] at he
      obtain ⟨x, h, rfl⟩ := he
      simp [bare, content_lit, goFloats, C128_back x (hx x h)]
  · intro i x hi hb
    exact getFloat_of (hx x (List.mem_of_getElem? hi)) (bare_get hw (v := .lit (formatFloat x)) (by simp [hi]) hb)

/-- **C142 (partial)** What `MakeArrayFloat` writes for finite numbers that it keeps (`C47_iff_partial`), `GetFloatArray` reads back.  Missing: the other
numbers, where it is false (`C142_fails`). -/
theorem C142_partial (xs : List UInt64) (ns : List NumText) (hne : xs ≠ []) (hx : ∀ x ∈ xs, isFinite x) (h : xs.map formatFloat = ns.map NumText.text)
    (hn : ∀ n ∈ ns, n.wf ∧ n.exp = none ∧ n.kept = true ∧ 2 ≤ n.text.length) :
    ∃ t, MakeArrayFloat goFloats (some xs) = .ok t ∧ GetFloatArray goFloats t [] = .ok xs :=
  ⟨_, (C47_iff_partial goFloats xs ns h fun n hm => ⟨(hn n hm).1, (hn n hm).2.1⟩).2 fun n hm => (hn n hm).2.2,
    (C142_texts xs hne fun x hm => Nat.le_of_lt (hx x hm)).1⟩

namespace FT

section
variable {α : Type} {conv last : Bytes → Out α} {val : Bytes}

/-- A text with no bracket, comma, quote or backslash in it. -/
theorem split_text {st : Nat} {acc : List α} {t : Bytes} (ht : t = [] ∨ (Json.lit t).wf) (h1 : Seg val st t) (hp : PrevOk val st) :
    Run val (splitBody conv last val) st ⟨st, false, 1, acc⟩ (st + t.length) ⟨st, false, 1, acc⟩ := by
  rcases ht with rfl | ht
  · rfl
  · have h1 : Seg val st ([] ++ ((Json.lit t).render ++ [])) := by simpa using h1
    obtain ⟨s', r1, rfl⟩ := (split_skips (conv := conv) (last := last) st acc).padded (l := []) (r := []) (by decide) ht (by decide) (d := 0) h1 hp rfl
    simpa using r1

theorem split_texts : ∀ (ts : List Bytes) {st : Nat} {acc : List α}, ts ≠ [] → (∀ t ∈ ts, t = [] ∨ (Json.lit t).wf) →
    Seg val st ((eachComma ts).dropLast ++ [93]) → PrevOk val st →
    splitRes (forUp val.length (splitBody conv last val) st ⟨st, false, 1, acc⟩) = (readAll conv last ts).map (acc ++ ·)
  | [], _, _, h, _, _, _ => (h rfl).elim
  | [t], st, acc, _, hw, hseg, hp => by
    have e : (eachComma [t]).dropLast = t := by simp [eachComma]
    rw [e, seg_append, seg_cons] at hseg
    have r1 := split_text (conv := conv) (last := last) (acc := acc) (hw t (by simp)) hseg.1 hp
    unfold Run at r1
    rw [r1]
    exact split_last hseg.1 hseg.2.1
  | t :: u :: ts, st, acc, _, hw, hseg, hp => by
    have hne : eachComma (u :: ts) ≠ [] := by simp [eachComma]
    have e : (eachComma (t :: u :: ts)).dropLast = t ++ 44 :: (eachComma (u :: ts)).dropLast := by
      have : eachComma (t :: u :: ts) = (t ++ [44]) ++ eachComma (u :: ts) := by simp [eachComma]
      rw [this, List.dropLast_append_of_ne_nil hne, List.append_assoc]; rfl
    rw [e, List.append_assoc, List.cons_append, seg_append, seg_cons] at hseg
    obtain ⟨h1, h2, h3⟩ := hseg
    have r1 := split_text (conv := conv) (last := last) (acc := acc) (hw t (by simp)) h1 hp
    unfold Run at r1
    rw [r1]
    have hlt := lt_of_getElem? h2
    have hs : slice val st ((st + t.length : Nat) : Int) = .ok t := slice_seg h1 rfl (by omega)
    have hb : splitBody conv last val (st + t.length) ⟨st, false, 1, acc⟩ = match conv t with
        | .ok a => .next ⟨st + t.length + 1, false, 1, acc ++ [a]⟩
        | .err e => .ret (.err e)
        | .panic => .ret .panic := by
      generalize st + t.length = n at h2 hs
      simp [splitBody, h2, hs]
      cases conv t <;> rfl
    rw [readAll]
    · cases hl : conv t with
      | ok a =>
        rw [hl] at hb
        rw [forUp_next hlt hb, split_texts (u :: ts) (by simp) (fun x hx => hw x (by simp only [List.mem_cons] at hx ⊢; exact .inr hx)) h3 (prevOk_succ h2 (by decide))]
        cases readAll conv last (u :: ts) <;> simp [Out.map]
      | err x => rw [hl] at hb; rw [forUp_ret hlt hb]; rfl
      | panic => rw [hl] at hb; rw [forUp_ret hlt hb]; rfl
    · simp

theorem split_made {ts : List Bytes} (h0 : ts ≠ []) (hw : ∀ t ∈ ts, t = [] ∨ (Json.lit t).wf) :
    splitArray conv last (MakeArrayBytes (some ts)) = readAll conv last ts := by
  have hne : eachComma ts ≠ [] := by
    obtain ⟨t, ts, rfl⟩ := List.exists_cons_of_ne_nil h0
    simp [eachComma]
  have ev : MakeArrayBytes (some ts) = 91 :: ((eachComma ts).dropLast ++ [93]) := by
    unfold MakeArrayBytes makeArr closeWith
    simp only
    rw [List.dropLast_cons_of_ne_nil hne]; rfl
  have hs := seg_self (MakeArrayBytes (some ts))
  generalize hv : MakeArrayBytes (some ts) = val at hs
  conv at hs => arg 3; rw [← hv, ev]
  rw [seg_cons] at hs
  obtain ⟨h1, h2⟩ := hs
  have hid : ∀ x : Out (List α), x.map ([] ++ ·) = x := by intro x; cases x <;> simp [Out.map]
  have key : splitRes (forUp val.length (splitBody conv last val) 0 ⟨1, false, 0, []⟩) = readAll conv last ts := by
    rw [forUp_next (lt_of_getElem? h1) (s' := ⟨1, false, 1, []⟩) (by simp [splitBody, h1])]
    rw [Nat.zero_add, split_texts ts h0 hw h2 (by simpa using prevOk_succ h1 (by decide)), hid]
  rw [← key]
  unfold splitArray splitRes
  split <;> rename_i h <;> simp [h]

end

theorem bracketed_made {ts : List Bytes} (h0 : ts ≠ []) : bracketed (MakeArrayBytes (some ts)) = true ∧ 2 ≤ (MakeArrayBytes (some ts)).length := by
  have hne : eachComma ts ≠ [] := by
    obtain ⟨t, ts, rfl⟩ := List.exists_cons_of_ne_nil h0
    simp [eachComma]
  have ev : MakeArrayBytes (some ts) = (91 :: (eachComma ts).dropLast) ++ [93] := by
    unfold MakeArrayBytes makeArr closeWith
    simp only
    rw [List.dropLast_cons_of_ne_nil hne]
  rw [ev]
  exact ⟨by rw [bracketed, List.getLast?_concat]; simp, by simp⟩

/-- A text that is left out stops the reader. -/
theorem read_hole {α : Type} {conv : Bytes → Out α} (hn : conv [] = .panic) : ∀ (ts : List Bytes), (∀ t ∈ ts, t ≠ [] → ∃ a, conv t = .ok a) → [] ∈ ts →
    readAll conv conv ts = .panic
  | [], _, h => by simp at h
  | [t], _, h => by
    rw [← List.mem_singleton.1 h, readAll, hn]; rfl
  | t :: u :: ts, hc, h => by
    rw [readAll]
    · by_cases ht : t = []
      · rw [ht, hn]; rfl
      · obtain ⟨a, ha⟩ := hc t (by simp) ht
        have hm : [] ∈ u :: ts := by
          rcases List.mem_cons.1 h with h | h
          · exact absurd h.symm ht
          · exact h
        rw [ha, read_hole hn (u :: ts) (fun x hx => hc x (by simp only [List.mem_cons] at hx ⊢; exact .inr hx)) hm]; rfl
    · simp

end FT

/-- **C142 (partial)** Exactly: if `MakeArrayFloat` writes something for a list of finite numbers, `GetFloatArray` gives the list back when all were kept, and
panics when one was not. -/
theorem C142_exact_partial (xs : List UInt64) (ns : List NumText) (hne : xs ≠ []) (hx : ∀ x ∈ xs, isFinite x) (h : xs.map formatFloat = ns.map NumText.text)
    (hn : ∀ n ∈ ns, n.wf ∧ n.exp = none ∧ 2 ≤ n.text.length) :
    ∃ t, MakeArrayFloat goFloats (some xs) = .ok t ∧ GetFloatArray goFloats t [] = if ns.all NumText.kept then .ok xs else .panic := by
  by_cases hk : ns.all NumText.kept = true
  · rw [if_pos hk]
    exact C142_partial xs ns hne hx h fun n hm => ⟨(hn n hm).1, (hn n hm).2.1, List.all_eq_true.1 hk n hm, (hn n hm).2.2⟩
  rw [if_neg hk]
  have h0 : ns ≠ [] := by rintro rfl; simp at hk
  have hf := C47_exact_partial goFloats xs ns h fun n hm => ⟨(hn n hm).1, (hn n hm).2.1⟩
  rw [if_neg (by
    simp only [List.any_eq_true, decide_eq_true_eq, not_exists, not_and]
    intro n hm; have := (hn n hm).2.2; omega)] at hf
  refine ⟨_, hf, ?_⟩
  have hts : ns.map (fun n => if n.kept then n.text else []) ≠ [] := by simpa using h0
  obtain ⟨b1, b2⟩ := FT.bracketed_made hts
  have hx' : ∀ n ∈ ns, ∃ x, isFinite x ∧ formatFloat x = n.text := by
    intro n hm
    have : n.text ∈ xs.map formatFloat := by rw [h]; exact List.mem_map_of_mem hm
    obtain ⟨x, h1, h2⟩ := List.mem_map.1 this
    exact ⟨x, hx x h1, h2⟩
  unfold GetFloatArray GetString Get
  simp only [List.length_nil, beq_self_eq_true, if_true, Out.bind_ok]
  rw [if_neg (by omega), if_pos b1, FT.split_made hts]
  · refine FT.read_hole rfl _ ?_ ?_
    · intro t ht h3
      obtain ⟨n, hm, rfl⟩ := List.mem_map.1 ht
      obtain ⟨x, h1, h2⟩ := hx' n hm
      split at h3
      · rename_i hkn
        rw [if_pos hkn, ← h2]
        refine ⟨x, ?_⟩
        unfold convFloat
        have hs : (⟨[], .lit (formatFloat x), []⟩ : Elem Json).snug := fun _ _ => rfl
        have := elem_clean (e := ⟨[], .lit (formatFloat x), []⟩) (rfl : Ws [] = true) (C128_plain x) (rfl : Ws [] = true)
        rw [seen_snug hs] at this
        simp only [Elem.padded, List.nil_append, List.append_nil, content_lit, render_lit] at this
        rw [this]
        simp only [Out.bind_ok, goFloats, C128_back x (Nat.le_of_lt h1)]
      · exact absurd rfl h3
    · simp only [List.all_eq_true, Classical.not_forall] at hk
      obtain ⟨n, hm, hkn⟩ := hk
      exact List.mem_map.2 ⟨n, hm, by rw [if_neg hkn]⟩
  · intro t ht
    obtain ⟨n, hm, rfl⟩ := List.mem_map.1 ht
    obtain ⟨x, -, h2⟩ := hx' n hm
    split
    · right; rw [← h2]; exact C128_plain x
    · exact .inl rfl

/-- `12.5` is dropped, and `GetFloatArray` panics on what is left; `MakeArrayFloat` panics on `5`. -/
theorem C142_fails : MakeArrayFloat goFloats (some [0x4029000000000000]) = .ok (str "[]") ∧ GetFloatArray goFloats (str "[]") [] = .panic ∧
    MakeArrayFloat goFloats (some [0x3FF8000000000000, 0x4029000000000000]) = .ok (str "[1.5,]") ∧ GetFloatArray goFloats (str "[1.5,]") [] = .panic ∧
    MakeArrayFloat goFloats (some [0x4014000000000000]) = .panic := by
  refine ⟨?_, ?_, ?_, ?_, ?_⟩ <;> decide +kernel

/-- `1.5` and `-12` there and back. -/
example : ∃ t, MakeArrayFloat goFloats (some [0x3FF8000000000000, 0xC028000000000000]) = .ok t ∧
    GetFloatArray goFloats t [] = .ok [0x3FF8000000000000, 0xC028000000000000] :=
  C142_partial _ [⟨false, str "1", some (str "5"), none⟩, ⟨true, str "12", none, none⟩] (by decide) (by decide +kernel) (by decide +kernel) (by
    intro n hn
    rcases List.mem_cons.1 hn with rfl | hn
    · exact ⟨⟨by decide +kernel, fun f hf => by cases hf; decide +kernel, fun x hx => by cases hx⟩, rfl, by decide +kernel, by decide +kernel⟩
    · rw [List.mem_singleton.1 hn]
      exact ⟨⟨by decide +kernel, fun f hf => (by cases hf), fun x hx => (by cases hx)⟩, rfl, by decide +kernel, by decide +kernel⟩)

namespace Go

/-- **C142 (partial)** The same of the text. -/
theorem C142_text_partial (xs : List UInt64) (ns : List NumText) (hne : xs ≠ []) (hx : ∀ x ∈ xs, isFinite x) (h : xs.map formatFloat = ns.map NumText.text)
    (hn : ∀ n ∈ ns, n.wf ∧ n.exp = none ∧ 2 ≤ n.text.length) :
    ∃ t, Call1 goFloats (go% MakeArrayFloat) [.floats xs] (.ok [.bytes t]) ∧
      Call goFloats (go% GetFloatArray) [.bytes t] [] (if ns.all NumText.kept then .ok [.floats xs, .nil] else .panic) := by
  obtain ⟨t, h1, h2⟩ := C142_exact_partial xs ns hne hx h hn
  have a := text_MakeArrayFloat goFloats (some xs)
  rw [h1] at a
  have b := text_GetFloatArray goFloats t []
  rw [h2] at b
  refine ⟨t, a, ?_⟩
  cases hk : ns.all NumText.kept with
  | true => rw [hk] at b; exact b
  | false => rw [hk] at b; exact b

/-- Of the text, too, `12.5` does not survive. -/
theorem C142_text_fails :
    Call1 goFloats (go% MakeArrayFloat) [.floats [0x4029000000000000]] (.ok [.bytes (str "[]")]) ∧ Call goFloats (go% GetFloatArray) [.bytes (str "[]")] [] .panic := by
  have a := text_MakeArrayFloat goFloats (some [0x4029000000000000])
  rw [C142_fails.1] at a
  have b := text_GetFloatArray goFloats (str "[]") []
  rw [C142_fails.2.1] at b
  exact ⟨a, b⟩

end Go
end Jin
