import Verif.Proof.Find
/-!
# Proof.CoreLoc — `core` finds the value a path leads to
-/

namespace Jin
open Spec

/-! ### Path entries as integers -/

theorem digitsVal_eq (ds : Bytes) : ∀ acc, digitsVal acc ds =
    if ds.all (fun c => 0x30 ≤ c && c ≤ 0x39) then
      some (ds.foldl (fun a c => a * 10 + (c.toNat - 0x30)) acc) else none := by
  induction ds with
  | nil => intro acc; simp [digitsVal]
  | cons c ds ih =>
    intro acc
    simp only [digitsVal, ih, isDigit, List.all_cons, List.foldl_cons]
    by_cases h : (decide (48 ≤ c) && decide (c ≤ 57)) = true
    · simp only [h, if_true, Bool.true_and]
    · rw [if_neg h]
      simp only [Bool.not_eq_true] at h
      simp only [h, Bool.false_and, Bool.false_eq_true, if_false]

theorem parseNat_eq (ds : Bytes) : parseNat ds = if isDigits ds then some (decimalValue ds) else none := by
  cases ds with
  | nil => simp [parseNat, isDigits]
  | cons c ds => simp [parseNat, digitsVal_eq, isDigits, decimalValue]

/-- `strconv.Atoi` accepts exactly the integers of the specification. -/
theorem atoi_eq (t : Bytes) : atoi t = readInt t := by
  have hp : (2 ^ (64 - 1) : Int) = 9223372036854775808 := by decide
  have e : ∀ v : Int, (if -(2 ^ (64 - 1) : Int) ≤ v ∧ v < 2 ^ (64 - 1) then some v else none) =
      (some v).filter fun n => decide (-9223372036854775808 ≤ n ∧ n ≤ 9223372036854775807) := by
    intro v
    rw [hp, Option.filter_some]
    by_cases h : -9223372036854775808 ≤ v ∧ v ≤ 9223372036854775807
    · rw [if_pos (by omega), if_pos (decide_eq_true h)]
    · rw [if_neg (by omega), if_neg (by simpa using h)]
  unfold atoi parseIntBits readInt
  simp only [parseNat_eq]
  split
  · rename_i h
    split at h <;> split at h <;> simp_all
  · rename_i v h
    rw [e]
    congr 1
    split at h <;> split at h <;> simp_all

/-! ### Whitespace -/

theorem skipSpaces_ws {json w : Bytes} {c : UInt8} : ∀ {i : Nat}, Seg json i w → Ws w →
    json[i + w.length]? = some c → isWs c = false → skipSpaces json i = some (i + w.length) := by
  induction w with
  | nil =>
    intro i _ _ hc hn
    rw [skipSpaces]
    simp only [List.length_nil, Nat.add_zero] at hc ⊢
    split
    · rename_i h; rw [h] at hc; cases hc
    · rename_i h; rw [h] at hc; cases hc; simp [space_eq, hn]
  | cons b w ih =>
    intro i hs hw hc hn
    rw [seg_cons] at hs
    rw [ws_cons, Bool.and_eq_true] at hw
    rw [skipSpaces]
    have := ih hs.2 hw.2 (by rw [← hc]; congr 1; simp; omega) hn
    split
    · rename_i h; rw [h] at hs; cases hs.1
    · rename_i h; rw [hs.1] at h; cases h
      simp only [space_eq, hw.1, if_true, this]
      simp; omega

/-- Skipping the whitespace before a value. -/
theorem skipSpaces_value {json w : Bytes} {i : Nat} {v : Json} (hs : Seg json i w) (hw : Ws w)
    (hv : v.wf) (hvs : Seg json (i + w.length) v.render) : skipSpaces json i = some (i + w.length) :=
  skipSpaces_ws hs hw (hvs.first hv) (first_ns hv)

/-! ### The extent of a value -/

/-- Start and end that `core` reports for a value at `i`: quotes excluded. -/
def span (i : Nat) (v : Json) : Nat × Nat :=
  match v with
  | .str raw => (i + 1, i + 1 + raw.length)
  | v => (i, i + v.render.length)

theorem follows_plain {c : UInt8} (h : Follows c) :
    (space c || c == 44 || c == 93 || c == 125) = true := by
  rcases h with h | h | h | h
  · simp [space_eq, h]
  · simp [h]
  · simp [h]
  · simp [h]

theorem tok_plain {c : UInt8} (h : tokByte c) : (space c || c == 44 || c == 93 || c == 125) = false := by
  have := tokByte_ne h
  simp [space_eq, this.1, this.2.2.2.1, this.2.2.2.2.2.2.1, this.2.2.2.2.2.2.2.2]

theorem extent_lit {json : Bytes} {ks : Int} {t : Bytes} {i : Nat} {c : UInt8}
    (hw : (Json.lit t).wf) (hs : Seg json i t) (hc : json[i + t.length]? = some c) (hf : Follows c) :
    forUp json.length (plainBody json ks i) i () = .ret (.ok ⟨ks, i, i + t.length⟩) := by
  have key : ∀ (t : Bytes) (j : Nat), (∀ b ∈ t, tokByte b) → Seg json j t → json[j + t.length]? = some c →
      i < j + t.length →
      forUp json.length (plainBody json ks i) j () = .ret (.ok ⟨ks, i, j + t.length⟩) := by
    intro t
    induction t with
    | nil =>
      intro j _ _ hc hlt
      simp only [List.length_nil, Nat.add_zero] at hc hlt ⊢
      refine forUp_ret (lt_of_getElem? hc) ?_
      have hne : (i == j) = false := by simp; omega
      simp only [plainBody, hc, follows_plain hf, if_true, hne, Bool.false_eq_true, if_false]
    | cons b t ih =>
      intro j ht hs hc hlt
      rw [seg_cons] at hs
      rw [forUp_next (s' := ()) (lt_of_getElem? hs.1)
        (by simp only [plainBody, hs.1, tok_plain (ht b (by simp)), Bool.false_eq_true, if_false])]
      have e : j + (b :: t).length = j + 1 + t.length := by simp; omega
      rw [e]
      exact ih (j + 1) (fun b hb => ht b (by simp [hb])) hs.2 (by rw [← e]; exact hc) (by omega)
  simp only [Json.wf, Bool.and_eq_true, List.all_eq_true, Bool.not_eq_true', List.isEmpty_eq_false_iff] at hw
  have : 0 < t.length := List.length_pos_iff.2 hw.1
  exact key t i hw.2 hs hc (by omega)

theorem extent_str {json : Bytes} {ks : Int} {i : Nat} : ∀ raw : Text, strOk raw → ∀ j, Seg json j (raw ++ [34]) →
    forUp json.length (stringBody json ks i) j () = .ret (.ok ⟨ks, i + 1, j + raw.length⟩) := by
  refine strOk_ind ?_ ?_ ?_
  · intro j hs
    rw [List.nil_append, seg_cons] at hs
    exact forUp_ret (lt_of_getElem? hs.1) (by simp [stringBody, hs.1])
  · intro b r _ ih j hs
    rw [List.cons_append, List.cons_append, seg_cons, seg_cons] at hs
    rw [forUp_goto (s' := ()) (j := j + 1) (lt_of_getElem? hs.1) (by simp [stringBody, hs.1]) (by omega),
      ih _ hs.2.2]
    simp; omega
  · intro c r h1 h2 _ ih j hs
    rw [List.cons_append, seg_cons] at hs
    rw [forUp_next (s' := ()) (lt_of_getElem? hs.1) (by simp [stringBody, hs.1, h1, h2]), ih _ hs.2]
    simp; omega

theorem extent_container {json : Bytes} {ks : Int} {i : Nat} {v : Json} (hv : v.wf) (hc : v.isContainer)
    (hs : Seg json i v.render) :
    forUp json.length (braceBody json ks i) i (0, false) = .ret (.ok ⟨ks, i, i + v.render.length⟩) := by
  have H := @brace_skips json ks i
  have hsep : ∀ {j s c}, json[j]? = some c → c = 44 ∨ c = 58 → s = (((0 : Nat) : Int) + 1, false) →
      ∃ s', braceBody json ks i j s = .next s' ∧ s' = (((0 : Nat) : Int) + 1, false) := by
    rintro j s c hc ht rfl
    refine ⟨_, ?_, rfl⟩
    rcases ht with rfl | rfl <;> simp [braceBody, hc, isJSONChar]
  -- brackets `o`, `c` around a text that the loop passes over
  have wrap : ∀ {o c : UInt8} {t : Bytes}, (o = 91 ∨ o = 123) → (c = 93 ∨ c = 125) →
      Seg json i (o :: (t ++ [c])) →
      Run json (braceBody json ks i) (i + 1) (1, false) (i + 1 + t.length) (1, false) →
      forUp json.length (braceBody json ks i) i (0, false) =
        .ret (.ok ⟨ks, i, i + (o :: (t ++ [c])).length⟩) := by
    intro o c t ho hc hs hr
    rw [seg_cons, seg_append, seg_cons] at hs
    obtain ⟨h1, h2, h3, _⟩ := hs
    rw [forUp_next (s' := (1, false)) (lt_of_getElem? h1)
      (by rcases ho with rfl | rfl <;> simp [braceBody, h1, isJSONChar])]
    rw [hr, forUp_ret (r := .ok ⟨ks, i, i + 1 + t.length + 1⟩) (lt_of_getElem? h3)
      (by rcases hc with rfl | rfl <;> simp [braceBody, h3, isJSONChar])]
    simp; omega
  cases v with
  | lit t => simp [Json.isContainer] at hc
  | str t => simp [Json.isContainer] at hc
  | arr g es =>
    rw [render_arr] at hs ⊢
    refine wrap (Or.inl rfl) (Or.inl rfl) hs ?_
    rw [seg_cons, seg_append, seg_cons] at hs
    obtain ⟨h1, h2, h3, _⟩ := hs
    rw [wf_arr] at hv
    by_cases he : es.isEmpty
    · simp only [he, if_true] at h2 ⊢
      obtain ⟨s, hr, hs⟩ := H.ws hv.1 h2 (d := 0) rfl
      rw [hs] at hr; exact hr
    · simp only [he, Bool.false_eq_true, if_false] at h2 ⊢
      obtain ⟨s, hr, hs⟩ := H.elems es (d := 0) hsep hv.2 h2 (prevOk_succ h1 (by decide)) rfl
      rw [hs] at hr; exact hr
  | obj g ms =>
    rw [render_obj] at hs ⊢
    refine wrap (Or.inr rfl) (Or.inr rfl) hs ?_
    rw [seg_cons, seg_append, seg_cons] at hs
    obtain ⟨h1, h2, h3, _⟩ := hs
    rw [wf_obj] at hv
    by_cases he : ms.isEmpty
    · simp only [he, if_true] at h2 ⊢
      obtain ⟨s, hr, hs⟩ := H.ws hv.1 h2 (d := 0) rfl
      rw [hs] at hr; exact hr
    · simp only [he, Bool.false_eq_true, if_false] at h2 ⊢
      obtain ⟨s, hr, hs⟩ := H.members ms (d := 0) hsep hv.2 h2 (prevOk_succ h1 (by decide)) rfl
      rw [hs] at hr; exact hr

/-- From the first byte of a value `core` computes its extent. -/
theorem extent_ok {json : Bytes} {ks : Int} {i : Nat} {v : Json} (hv : v.wf)
    (hs : Seg json i v.render) (hf : ∃ c, json[i + v.render.length]? = some c ∧ Follows c) :
    extent json ks i v.first = .ok ⟨ks, (span i v).1, (span i v).2⟩ := by
  obtain ⟨c, hc, hf⟩ := hf
  cases v with
  | lit t =>
    have := tokByte_ne (first_lit hv)
    rw [render_lit] at hs hc
    simp only [extent, beq_eq_false_iff_ne.2 this.2.2.2.2.2.1, beq_eq_false_iff_ne.2 this.2.2.2.2.2.2.2.1,
      beq_eq_false_iff_ne.2 this.2.1, Bool.or_self, Bool.false_eq_true, if_false,
      extent_lit hv hs hc hf, span, render_lit]
  | str raw =>
    rw [render_str, seg_cons] at hs
    simp only [extent, first_str, extent_str (ks := ks) (i := i) raw (by simpa [Json.wf] using hv) _ hs.2, span]
    rfl
  | arr g es => simp [extent, extent_container hv rfl hs, span]
  | obj g ms => simp [extent, extent_container hv rfl hs, span]

end Jin
