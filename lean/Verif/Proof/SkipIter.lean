import Verif.Proof.Clean
import Verif.Model.Others
/-!
# Proof.SkipIter — the loops of the iteration and reading functions pass over values
-/

namespace Jin
open Spec

/-- The escape scan of `IterateArray` agrees with the common one when the scan ends
after index 0. -/
theorem quoteScan1_eq {json : Bytes} {i : Nat} : ∀ {m : Nat}, tb json m + 1 < m → quoteScan1 json i m = quoteScan json i m
  | 0, h => by omega
  | 1, h => by omega
  | n + 2, h => by
    unfold quoteScan1 quoteScan
    by_cases hc : json[n + 1]? = some 92
    · have : tb json (n + 1) + 1 < n + 1 := by
        rw [tb_succ_bs hc] at h; omega
      simp only [hc, bne_self_eq_false, Bool.false_eq_true, if_false]
      exact quoteScan1_eq this
    · simp [hc]

section ia
variable {σ : Type} {json : Bytes} {cb : σ → Bytes → Cb σ}

theorem ia_skips (b : Nat) (u : σ) : Skips json (iaBody json cb) (fun d s => s = ⟨b, false, (d : Int), u⟩) where
  tok := by
    rintro i d s c hc ht rfl
    exact ⟨_, by simp [iaBody, hc, isJSONChar_tok ht], rfl⟩
  sep := by
    rintro i d s c hc ht rfl
    refine ⟨_, ?_, rfl⟩
    have : ¬ ((d : Int) + 1 = 0) := by omega
    rcases ht with rfl | rfl <;> simp [iaBody, hc, isJSONChar, this]
  opn := by
    rintro i d s c hc ht rfl
    refine ⟨_, ?_, rfl⟩
    rcases ht with rfl | rfl <;> simp [iaBody, hc, isJSONChar]
  cls := by
    rintro i d s c hc ht rfl
    refine ⟨_, ?_, rfl⟩
    have h1 : ¬ ((d : Int) + 1 < 0) := by omega
    have h2 : ¬ ((d : Int) + 1 = 0) := by omega
    rcases ht with rfl | rfl <;> simp [iaBody, hc, isJSONChar, h1, h2]
  str := by
    rintro i d s raw hseg hok hp rfl
    refine str_of_scan (F := fun s : IaSt σ => s = ⟨b, false, (d : Int), u⟩)
      (G := fun s : IaSt σ => s = ⟨b, true, (d : Int), u⟩) ?_ ?_ ?_ ?_ hseg hok hp rfl
    · rintro i s hc hp rfl
      exact ⟨_, by simp [iaBody, hc, isJSONChar], rfl⟩
    · rintro i s c hc hne rfl
      refine ⟨_, ?_, rfl⟩
      by_cases h : isJSONChar true false c <;> simp [iaBody, hc, h, hne]
    · rintro i s hc h1 h2 rfl
      exact ⟨_, by simp [iaBody, hc, isJSONChar, quoteScan1_eq h1, quoteScan_escaped h1 h2], rfl⟩
    · rintro i s hc h1 h2 rfl
      exact ⟨_, by simp [iaBody, hc, isJSONChar, quoteScan1_eq h1, quoteScan_real h1 h2], rfl⟩

end ia

section ik
variable {σ : Type} {json : Bytes} {cb : σ → Bytes → Bytes → Cb σ}

/-- Inside the brackets of the object: only the key positions may change. -/
theorem ik_skips (a : IkSt σ) (hq : a.inQuote = false) :
    Skips json (ikBody json cb) (fun d s => ∃ ks ke, s = { a with level := (d : Int) + 1, keyStart := ks, keyEnd := ke }) where
  tok := by
    rintro i d s c hc ht ⟨ks, ke, rfl⟩
    exact ⟨_, by simp [ikBody, hc, isJSONChar_tok ht], ks, ke, rfl⟩
  sep := by
    rintro i d s c hc ht ⟨ks, ke, rfl⟩
    refine ⟨_, ?_, ks, ke, rfl⟩
    have : ¬ ((d : Int) + 1 + 1 = 1) := by omega
    rcases ht with rfl | rfl <;> simp [ikBody, hc, isJSONChar, hq, this]
  opn := by
    rintro i d s c hc ht ⟨ks, ke, rfl⟩
    refine ⟨_, ?_, ks, ke, rfl⟩
    rcases ht with rfl | rfl <;> simp [ikBody, hc, isJSONChar, hq]
  cls := by
    rintro i d s c hc ht ⟨ks, ke, rfl⟩
    refine ⟨_, ?_, ks, ke, rfl⟩
    have h2 : ¬ ((d : Int) + 1 + 1 = 1) := by omega
    rcases ht with rfl | rfl <;> simp [ikBody, hc, isJSONChar, hq, h2]
  str := by
    rintro i d s raw hseg hok hp ⟨ks, ke, rfl⟩
    refine str_of_scan (F := fun s => ∃ ks ke, s = { a with level := (d : Int) + 1, keyStart := ks, keyEnd := ke })
      (G := fun s => ∃ ks ke, s = { a with level := (d : Int) + 1, keyStart := ks, keyEnd := ke, inQuote := true }) ?_ ?_ ?_ ?_ hseg hok hp ⟨ks, ke, rfl⟩
    · rintro i s hc hp ⟨ks, ke, rfl⟩
      exact ⟨_, by simp [ikBody, hc, isJSONChar, ikQuote, hq], i, ke, rfl⟩
    · rintro i s c hc hne ⟨ks, ke, rfl⟩
      refine ⟨_, ?_, ks, ke, rfl⟩
      by_cases h : isJSONChar true true c <;> simp [ikBody, hc, h, hne]
    · rintro i s hc h1 h2 ⟨ks, ke, rfl⟩
      exact ⟨_, by simp [ikBody, hc, isJSONChar, ikQuote, quoteScan_escaped h1 h2], ks, ke, rfl⟩
    · rintro i s hc h1 h2 ⟨ks, ke, rfl⟩
      exact ⟨{ a with level := (d : Int) + 1, keyStart := ks, keyEnd := i }, by simp [ikBody, hc, isJSONChar, ikQuote, quoteScan_real h1 h2, hq], ks, i, rfl⟩

/-- A key is passed over and its position recorded. -/
theorem ik_key {a : IkSt σ} (hq : a.inQuote = false) {i : Nat} {raw : Bytes} (hseg : Seg json i (34 :: (raw ++ [34]))) (hok : strOk raw)
    (hp : PrevOk json i) :
    Run json (ikBody json cb) i a (i + (raw.length + 2)) { a with keyStart := i, keyEnd := i + (raw.length + 1) } := by
  suffices h : ∃ s', Run json (ikBody json cb) i a (i + (raw.length + 2)) s' ∧ s' = { a with keyStart := i, keyEnd := i + (raw.length + 1) } by
    obtain ⟨s', h1, rfl⟩ := h
    exact h1
  refine str_of_scan_at (body := ikBody json cb) (F := fun s => s = a)
      (G := fun s => s = { a with keyStart := i, inQuote := true }) (F' := fun s => s = { a with keyStart := i, keyEnd := i + (raw.length + 1) }) ?_ ?_ ?_ ?_ hseg hok hp rfl
  · rintro hc hp -
    exact ⟨_, by simp [ikBody, hc, isJSONChar, ikQuote, hq], rfl⟩
  · rintro i s c hc hne rfl
    refine ⟨_, ?_, rfl⟩
    by_cases h : isJSONChar true true c <;> simp [ikBody, hc, h, hne]
  · rintro i s hc h1 h2 rfl
    exact ⟨_, by simp [ikBody, hc, isJSONChar, ikQuote, quoteScan_escaped h1 h2], rfl⟩
  · rintro j s rfl hc h1 h2 rfl
    exact ⟨_, by simp [ikBody, hc, isJSONChar, ikQuote, quoteScan_real h1 h2, hq], rfl⟩

end ik

section len
variable {json : Bytes}

theorem len_skips (n : Nat) (m : Int) (hm : 1 ≤ m) : Skips json (lenBody json) (fun d s => s = ⟨n, m + d, false⟩) where
  tok := by
    rintro i d s c hc ht rfl
    exact ⟨_, by simp [lenBody, hc, isJSONChar_tok ht], rfl⟩
  sep := by
    rintro i d s c hc ht rfl
    refine ⟨_, ?_, rfl⟩
    have : ¬ (m + ((d : Int) + 1) = 1) := by omega
    rcases ht with rfl | rfl <;> simp [lenBody, hc, isJSONChar, this]
  opn := by
    rintro i d s c hc ht rfl
    refine ⟨_, ?_, rfl⟩
    rcases ht with rfl | rfl <;> simp [lenBody, hc, isJSONChar] <;> omega
  cls := by
    rintro i d s c hc ht rfl
    refine ⟨_, ?_, rfl⟩
    rcases ht with rfl | rfl <;> simp [lenBody, hc, isJSONChar] <;> omega
  str := by
    rintro i d s raw hseg hok hp rfl
    refine str_of_scan (F := fun s : LenSt => s = ⟨n, m + d, false⟩)
      (G := fun s : LenSt => s = ⟨n, m + d, true⟩) ?_ ?_ ?_ ?_ hseg hok hp rfl
    · rintro i s hc hp rfl
      exact ⟨_, by simp [lenBody, hc, isJSONChar, hp.scan], rfl⟩
    · rintro i s c hc hne rfl
      refine ⟨_, ?_, rfl⟩
      by_cases h : isJSONChar true false c <;> simp [lenBody, hc, h, hne]
    · rintro i s hc h1 h2 rfl
      exact ⟨_, by simp [lenBody, hc, isJSONChar, quoteScan_escaped h1 h2], rfl⟩
    · rintro i s hc h1 h2 rfl
      exact ⟨_, by simp [lenBody, hc, isJSONChar, quoteScan_real h1 h2], rfl⟩

end len

section kv
variable {json : Bytes}

/-- What the three loops over an object have in common. -/
structure KvLike (json : Bytes) (body : Nat → KvSt → Ctl KvSt Unit) (wantK wantV : Bool) : Prop where
  colon : ∀ {i : Nat} {s key}, json[i]? = some 58 → s.inQuote = false → s.level = 1 →
    slice json ((s.keyStart : Int) + 1) s.keyEnd = .ok key → body i s = .next { s with
      keys := if wantK then s.keys ++ [key] else s.keys, start := if wantV then i + 1 else s.start }
  comma : ∀ {i : Nat} {s v}, json[i]? = some 44 → s.inQuote = false → s.level = 1 →
    (wantV → (slice json s.start i >>= cleanValueString) = .ok v) → body i s = .next { s with
      values := if wantV then s.values ++ [v] else s.values, start := if wantV then i + 1 else s.start }
  close : ∀ {i : Nat} {s v}, json[i]? = some 125 → s.inQuote = false → s.level = 1 →
    (wantV → (slice json s.start i >>= cleanValueString) = .ok v) → body i s = .brk { s with
      values := if wantV then s.values ++ [v] else s.values }
  quiet : ∀ {i s c}, json[i]? = some c → isJSONChar true true c = false → body i s = .next s
  quote : ∀ {i s}, json[i]? = some 34 → body i s = .next (kvQuote json i s)
  inside : ∀ {i s c}, json[i]? = some c → c ≠ 34 → s.inQuote = true → body i s = .next s
  opn : ∀ {i s c}, json[i]? = some c → c = 91 ∨ c = 123 → s.inQuote = false → body i s = .next { s with level := s.level + 1 }
  cls : ∀ {i s c}, json[i]? = some c → c = 93 ∨ c = 125 → s.inQuote = false → s.level ≠ 1 → body i s = .next { s with level := s.level - 1 }
  sep : ∀ {i s c}, json[i]? = some c → c = 44 ∨ c = 58 → s.inQuote = false → s.level ≠ 1 → body i s = .next s

theorem keys_like : KvLike json (keysBody json) true false where
  colon := by rintro i ⟨⟩ key hc h1 h2 h3; simp_all [keysBody, isJSONChar]
  comma := by rintro i ⟨⟩ key hc h1 h2 h3; simp_all [keysBody, isJSONChar]
  close := by rintro i ⟨⟩ key hc h1 h2 h3; simp_all [keysBody, isJSONChar]
  quiet := by intro i s c hc h; simp [keysBody, hc, h]
  quote := by intro i s hc; simp [keysBody, hc, isJSONChar]
  inside := by intro i s c hc h1 h2; by_cases h : isJSONChar true true c <;> simp [keysBody, hc, h, h1, h2]
  opn := by intro i s c hc h h2; rcases h with rfl | rfl <;> simp [keysBody, hc, isJSONChar, h2]
  cls := by intro i s c hc h h2 h3; rcases h with rfl | rfl <;> simp [keysBody, hc, isJSONChar, h2, h3]
  sep := by intro i s c hc h h2 h3; rcases h with rfl | rfl <;> simp [keysBody, hc, isJSONChar, h2, h3]

theorem values_like : KvLike json (valuesBody json) false true where
  colon := by intro i s key hc h1 h2 h3; simp [valuesBody, hc, isJSONChar, h1, h2]
  comma := by intro i s key hc h1 h2 h3; simp [valuesBody, hc, isJSONChar, h1, h2, h3 rfl]
  close := by intro i s key hc h1 h2 h3; simp [valuesBody, hc, isJSONChar, h1, h2, h3 rfl]
  quiet := by intro i s c hc h; simp [valuesBody, hc, h]
  quote := by intro i s hc; simp [valuesBody, hc, isJSONChar]
  inside := by intro i s c hc h1 h2; by_cases h : isJSONChar true true c <;> simp [valuesBody, hc, h, h1, h2]
  opn := by intro i s c hc h h2; rcases h with rfl | rfl <;> simp [valuesBody, hc, isJSONChar, h2]
  cls := by intro i s c hc h h2 h3; rcases h with rfl | rfl <;> simp [valuesBody, hc, isJSONChar, h2, h3]
  sep := by intro i s c hc h h2 h3; rcases h with rfl | rfl <;> simp [valuesBody, hc, isJSONChar, h2, h3]

theorem keysValues_like : KvLike json (keysValuesBody json) true true where
  colon := by intro i s key hc h1 h2 h3; simp [keysValuesBody, hc, isJSONChar, h1, h2, h3]
  comma := by intro i s key hc h1 h2 h3; simp [keysValuesBody, hc, isJSONChar, h1, h2, h3 rfl]
  close := by intro i s key hc h1 h2 h3; simp [keysValuesBody, hc, isJSONChar, h1, h2, h3 rfl]
  quiet := by intro i s c hc h; simp [keysValuesBody, hc, h]
  quote := by intro i s hc; simp [keysValuesBody, hc, isJSONChar]
  inside := by intro i s c hc h1 h2; by_cases h : isJSONChar true true c <;> simp [keysValuesBody, hc, h, h1, h2]
  opn := by intro i s c hc h h2; rcases h with rfl | rfl <;> simp [keysValuesBody, hc, isJSONChar, h2]
  cls := by intro i s c hc h h2 h3; rcases h with rfl | rfl <;> simp [keysValuesBody, hc, isJSONChar, h2, h3]
  sep := by intro i s c hc h h2 h3; rcases h with rfl | rfl <;> simp [keysValuesBody, hc, isJSONChar, h2, h3]

variable {body : Nat → KvSt → Ctl KvSt Unit} {wantK wantV : Bool}

theorem KvLike.skips (H : KvLike json body wantK wantV) (a : KvSt) (hq : a.inQuote = false) :
    Skips json body (fun d s => ∃ ks ke, s = { a with level := (d : Int) + 1, keyStart := ks, keyEnd := ke }) where
  tok := by
    rintro i d s c hc ht ⟨ks, ke, rfl⟩
    exact ⟨_, H.quiet hc (isJSONChar_tok ht), ks, ke, rfl⟩
  sep := by
    rintro i d s c hc ht ⟨ks, ke, rfl⟩
    exact ⟨_, H.sep hc ht hq (by simp only; omega), ks, ke, rfl⟩
  opn := by
    rintro i d s c hc ht ⟨ks, ke, rfl⟩
    exact ⟨_, H.opn hc ht hq, ks, ke, by simp⟩
  cls := by
    rintro i d s c hc ht ⟨ks, ke, rfl⟩
    exact ⟨_, H.cls hc ht hq (by simp only; omega), ks, ke, by simp⟩
  str := by
    rintro i d s raw hseg hok hp ⟨ks, ke, rfl⟩
    refine str_of_scan (F := fun s => ∃ ks ke, s = { a with level := (d : Int) + 1, keyStart := ks, keyEnd := ke })
      (G := fun s => ∃ ks ke, s = { a with level := (d : Int) + 1, keyStart := ks, keyEnd := ke, inQuote := true }) ?_ ?_ ?_ ?_ hseg hok hp ⟨ks, ke, rfl⟩
    · rintro i s hc hp ⟨ks, ke, rfl⟩
      exact ⟨_, H.quote hc, i, ke, by simp [kvQuote, hq]⟩
    · rintro i s c hc hne ⟨ks, ke, rfl⟩
      exact ⟨_, H.inside hc hne rfl, ks, ke, rfl⟩
    · rintro i s hc h1 h2 ⟨ks, ke, rfl⟩
      exact ⟨_, H.quote hc, ks, ke, by simp [kvQuote, quoteScan_escaped h1 h2]⟩
    · rintro i s hc h1 h2 ⟨ks, ke, rfl⟩
      exact ⟨_, H.quote hc, ks, i, by simp [kvQuote, quoteScan_real h1 h2, hq]⟩

/-- A key is passed over and its position recorded. -/
theorem KvLike.key (H : KvLike json body wantK wantV) {a : KvSt} (hq : a.inQuote = false) {i : Nat} {raw : Bytes}
    (hseg : Seg json i (34 :: (raw ++ [34]))) (hok : strOk raw) (hp : PrevOk json i) :
    Run json body i a (i + (raw.length + 2)) { a with keyStart := i, keyEnd := i + (raw.length + 1) } := by
  suffices h : ∃ s', Run json (body) i a (i + (raw.length + 2)) s' ∧ s' = { a with keyStart := i, keyEnd := i + (raw.length + 1) } by
    obtain ⟨s', h1, rfl⟩ := h
    exact h1
  refine str_of_scan_at (body := body) (F := fun s => s = a)
      (G := fun s => s = { a with keyStart := i, inQuote := true }) (F' := fun s => s = { a with keyStart := i, keyEnd := i + (raw.length + 1) }) ?_ ?_ ?_ ?_ hseg hok hp rfl
  · rintro hc hp -
    exact ⟨_, H.quote hc, by simp [kvQuote, hq]⟩
  · rintro i s c hc hne rfl
    exact ⟨_, H.inside hc hne rfl, rfl⟩
  · rintro i s hc h1 h2 rfl
    exact ⟨_, H.quote hc, by simp [kvQuote, quoteScan_escaped h1 h2]⟩
  · rintro j s rfl hc h1 h2 rfl
    exact ⟨_, H.quote hc, by simp [kvQuote, quoteScan_real h1 h2, hq]⟩

end kv

end Jin
