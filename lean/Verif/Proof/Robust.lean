import Verif.Proof.Scan
import Verif.Proof.Iterate
/-!
# Proof.Robust — the iterating loops on arbitrary bytes
-/

namespace Jin
open Spec

variable {json : Bytes} {a i start ks ke : Nat} {c : UInt8} {q : Bool} {lv : Int} {seps : List UInt8}

/-! ### Where the value starts -/

theorem core_true (hj : Settled json) {path : List Bytes} (hp : path ≠ []) :
    (∃ e, core json true path = .err e) ∨ ∃ l c, core json true path = .ok l ∧ json[l.start]? = some c := by
  unfold core
  split
  · exact .inl ⟨_, rfl⟩
  · rename_i hlen
    cases path with
    | nil => exact absurd rfl hp
    | cons p ps =>
      simp only
      obtain ⟨j, c, h1, -, h3, -⟩ := hj.skip 0 (by omega)
      rw [h1]; simp only [h3]
      have hjlt := lt_of_getElem? h3
      have := coreLoop_inv (path := p :: ps) hj (p :: ps).length (s := ⟨0, j, c, p, -1⟩) hjlt
        (fun _ => ⟨hjlt, fun hc => hj.lt h3 (by rw [show c = 91 from hc]; decide)⟩)
      cases hz : coreLoop json (p :: ps) (p :: ps).length ⟨0, j, c, p, -1⟩ with
      | ret r =>
        rw [hz] at this
        obtain ⟨e, rfl⟩ := this
        exact .inl ⟨e, rfl⟩
      | done t =>
        rw [hz] at this
        simp only
        unfold coreTail
        split
        · exact .inl ⟨_, rfl⟩
        · obtain ⟨j', c', h1', -, h3', -⟩ := hj.skip t.offset this
          rw [h1']
          exact .inr ⟨_, c', rfl, h3'⟩

/-! ### `IterateArray` -/

structure IaInv {σ : Type} (json : Bytes) (i : Nat) (s : IaSt σ) : Prop where
  le : s.start ≤ i
  pair : Paired json s.start i s.inQuote

theorem isJSON_quote {x y : Bool} (h : (!isJSONChar x y c) = true) : c ≠ 34 := by
  rintro rfl; simp [isJSONChar] at h

theorem ia_safe {σ : Type} {cb : σ → Bytes → Cb σ} (hcb : ∀ s v, cb s v ≠ .panic) {s : IaSt σ} (h : IaInv json i s) :
    After (fun _ => True) (fun r => r ≠ IterRes.panic) (forUp json.length (iaBody json cb) i s) := by
  refine forUp_inv (P := fun i s => IaInv json i s) ?_ (fun _ _ _ _ => trivial) h
  intro i s hi h
  obtain ⟨c, hc⟩ := getElem_ex hi
  obtain ⟨hle, hp⟩ := h
  have cut : s.inQuote = false → ∃ v, (slice json s.start i >>= cleanValue) = .ok v := fun hq => by
    rw [hq] at hp
    rw [slice_range hle (by omega)]
    exact cleanValue_safe (hp.piece (by omega))
  unfold iaBody
  simp only [hc]
  split
  · exact ⟨Nat.le_succ_of_le hle, hp.next hc (.inl (isJSON_quote (by assumption)))⟩
  · split
    · rename_i h34
      have h34 : c = 34 := by simpa using h34
      subst h34
      split
      · rename_i hq
        have hp : Paired json s.start i true := by rw [← hq]; exact hp
        split
        · exact ⟨Nat.le_succ_of_le hle, hp.closes hc⟩
        · exact ⟨Nat.le_succ_of_le hle, by rw [hq]; exact hp.next hc (.inr rfl)⟩
      · exact ⟨Nat.le_succ_of_le hle, Paired.opens hle hc⟩
    · rename_i h34
      have h34 : c ≠ 34 := by simpa using h34
      have hn := hp.next hc (.inl h34)
      have stay : IaInv json (i + 1) s := ⟨by omega, hn⟩
      split
      · exact stay
      · rename_i hq
        have hq : s.inQuote = false := by simpa using hq
        obtain ⟨v, hv⟩ := cut hq
        split
        · exact ⟨Nat.le_succ_of_le hle, hn⟩
        · split
          · split
            · exact fun h => by cases h
            · split
              · rw [hv]; simp only
                cases hcv : cb s.user v with
                | panic => exact absurd hcv (hcb _ _)
                | ret u b e => exact fun h => by cases h
              · exact ⟨Nat.le_succ_of_le hle, hn⟩
          · split
            · rw [hv]; simp only
              cases hcv : cb s.user v with
              | panic => exact absurd hcv (hcb _ _)
              | ret u b e =>
                cases e with
                | some e => exact fun h => by cases h
                | none =>
                  cases b with
                  | false => exact fun h => by cases h
                  | true => exact ⟨Nat.le_refl _, by simp only [hq]; exact Paired.none _⟩
            · exact stay

/-! ### The object loops -/

/-- What the loops over an object that starts at `a` know at `i`. -/
structure ObjInv (json : Bytes) (seps : List UInt8) (a i : Nat) (q : Bool) (lv : Int) (start ks ke : Nat) : Prop where
  sees : Sees json a i q lv
  inside : ∀ j, a < j → j ≤ i → 1 ≤ (upto json a j).depth
  lo : a ≤ start
  hi : start ≤ i
  pair : Paired json start i q
  key : q = false → (upto json a i).closed = true → ks + 1 ≤ ke
  kin : q = true → ks < i
  kend : ke ≤ i
  full : i = a ∨ (∃ m b, start ≤ m ∧ m < i ∧ json[m]? = some b ∧ space b = false) ∨
    ∃ b c, start = b + 1 ∧ json[b]? = some c ∧ c ∈ seps ∧ a ≤ b ∧ Direct ((json.drop a).take (b - a))

theorem ObjInv.init (json : Bytes) (seps : List UInt8) (a ks : Nat) : ObjInv json seps a a false 0 a ks 0 :=
  ⟨.init _ _, fun j h1 h2 => by omega, Nat.le_refl _, Nat.le_refl _, .none _, fun _ h => (by rw [upto_self] at h; cases h),
    by simp, Nat.zero_le _, .inl rfl⟩

theorem inside_succ (h : ∀ j, a < j → j ≤ i → 1 ≤ (upto json a j).depth) (h' : 1 ≤ (upto json a (i + 1)).depth) :
    ∀ j, a < j → j ≤ i + 1 → 1 ≤ (upto json a j).depth := fun j h1 h2 => by
  by_cases hj : j = i + 1
  · subst hj; exact h'
  · exact h j h1 (by omega)

theorem full_succ (hb : json[a]? = some c) (hs : space c = false) (hi : start ≤ i) (hlo : a ≤ start) (ha : a ≤ i)
    (h : i = a ∨ (∃ m b, start ≤ m ∧ m < i ∧ json[m]? = some b ∧ space b = false) ∨
      ∃ b c, start = b + 1 ∧ json[b]? = some c ∧ c ∈ seps ∧ a ≤ b ∧ Direct ((json.drop a).take (b - a))) :
    i + 1 = a ∨ (∃ m b, start ≤ m ∧ m < i + 1 ∧ json[m]? = some b ∧ space b = false) ∨
      ∃ b c, start = b + 1 ∧ json[b]? = some c ∧ c ∈ seps ∧ a ≤ b ∧ Direct ((json.drop a).take (b - a)) := by
  rcases h with h | ⟨m, b, h1, h2, h3, h4⟩ | h
  · subst h; exact .inr (.inl ⟨i, c, by omega, by omega, hb, hs⟩)
  · exact .inr (.inl ⟨m, b, h1, by omega, h3, h4⟩)
  · exact .inr (.inr h)

/-- A byte in a string. -/
theorem ObjInv.str (h : ObjInv json seps a i true lv start ks ke) (hb : json[a]? = some 123) (hc : json[i]? = some c)
    (hq : c ≠ 34 ∨ tb json i % 2 = 1) : ObjInv json seps a (i + 1) true lv start ks ke := by
  obtain ⟨h1, h2⟩ := h.sees.inside hc hq
  have hne : a ≠ i := by
    rintro rfl
    have := h.sees.str
    rw [upto_self] at this; cases this
  have hl := h.inside i (by have := h.sees.le; omega) (Nat.le_refl _)
  exact ⟨h1, inside_succ h.inside (by rw [h1.lev, ← h.sees.lev]; exact hl), h.lo, by have := h.hi; omega, h.pair.next hc (.inr rfl),
    by simp, fun _ => by have := h.kin rfl; omega, by have := h.kend; omega, full_succ hb (by decide) h.hi h.lo h.sees.le h.full⟩

/-- A quote outside. -/
theorem ObjInv.opens (h : ObjInv json seps a i false lv start ks ke) (hb : json[a]? = some 123) (hc : json[i]? = some 34) :
    ObjInv json seps a (i + 1) true lv start i ke := by
  obtain ⟨h1, h2⟩ := h.sees.opens hc
  have hne : a ≠ i := by
    rintro rfl
    rw [hb] at hc; cases hc
  have hl := h.inside i (by have := h.sees.le; omega) (Nat.le_refl _)
  exact ⟨h1, inside_succ h.inside (by rw [h1.lev, ← h.sees.lev]; exact hl), h.lo, by have := h.hi; omega, .opens h.hi hc,
    by simp, fun _ => by omega, by have := h.kend; omega, full_succ hb (by decide) h.hi h.lo h.sees.le h.full⟩

/-- The closing quote. -/
theorem ObjInv.closes (h : ObjInv json seps a i true lv start ks ke) (hb : json[a]? = some 123) (hc : json[i]? = some 34)
    (h1 : Sees json a (i + 1) false lv) : ObjInv json seps a (i + 1) false lv start ks i := by
  have hne : a ≠ i := by
    rintro rfl
    have := h.sees.str
    rw [upto_self] at this; cases this
  have hl := h.inside i (by have := h.sees.le; omega) (Nat.le_refl _)
  exact ⟨h1, inside_succ h.inside (by rw [h1.lev, ← h.sees.lev]; exact hl), h.lo, by have := h.hi; omega, h.pair.closes hc,
    fun _ _ => h.kin rfl, by simp, by omega, full_succ hb (by decide) h.hi h.lo h.sees.le h.full⟩

/-- What the quote handling of the loops does. -/
theorem ObjInv.quote (h : ObjInv json seps a i q lv start ks ke) (hb : json[a]? = some 123) (hc : json[i]? = some 34) :
    (q = true ∧ quoteScan json i i = .real ∧ ObjInv json seps a (i + 1) false lv start ks i ∧ (upto json a (i + 1)).closed = true) ∨
    (q = true ∧ quoteScan json i i = .escaped ∧ ObjInv json seps a (i + 1) true lv start ks ke ∧
      (upto json a (i + 1)).closed = (upto json a i).closed) ∨
    (q = false ∧ ObjInv json seps a (i + 1) true lv start i ke ∧ (upto json a (i + 1)).closed = (upto json a i).closed) := by
  cases q with
  | false => exact .inr (.inr ⟨rfl, h.opens hb hc, (h.sees.opens hc).2⟩)
  | true =>
    rcases h.sees.quote hc with ⟨h1, h2, h3⟩ | ⟨h1, h2, h3⟩
    · exact .inl ⟨rfl, h1, h.closes hb hc h2, h3⟩
    · refine .inr (.inl ⟨rfl, h1, h.str hb hc (.inr ?_), h3⟩)
      have hq := quoteScan_eq (h.sees.esc rfl).2
      rw [h1] at hq
      by_cases ht : tb json i % 2 = 0
      · rw [if_pos ht] at hq; cases hq
      · omega

/-- Any other byte outside. -/
theorem ObjInv.out (h : ObjInv json seps a i false lv start ks ke) (hb : json[a]? = some 123) (hc : json[i]? = some c) (hq : c ≠ 34)
    {lv' : Int} (hlv : (if c = 91 ∨ c = 123 then lv + 1 else if c = 93 ∨ c = 125 then lv - 1 else lv) = lv')
    (h1 : lv = 1 → c ≠ 93 ∧ c ≠ 125) : ObjInv json seps a (i + 1) false lv' start ks ke := by
  obtain ⟨h2, h3⟩ := h.sees.outside hc hq
  rw [hlv] at h2
  have hl : 1 ≤ lv' := by
    by_cases hia : i = a
    · subst hia
      rw [hb] at hc; injection hc with hc; subst hc
      have := h.sees.lev
      rw [upto_self] at this
      have h0 : lv = 0 := this.symm
      subst h0; rw [← hlv]; decide
    · have := h.inside i (by have := h.sees.le; omega) (Nat.le_refl _)
      rw [h.sees.lev] at this
      rw [← hlv]
      split
      · omega
      · split
        · rename_i hcl
          by_cases h01 : lv = 1
          · obtain ⟨x, y⟩ := h1 h01; rcases hcl with hcl | hcl <;> contradiction
          · omega
        · omega
  exact ⟨h2, inside_succ h.inside (by rw [h2.lev]; exact hl), h.lo, by have := h.hi; omega, h.pair.next hc (.inl hq),
    fun h4 h5 => h.key h4 (by rw [← h3]; exact h5), by simp, by have := h.kend; omega,
    full_succ hb (by decide) h.hi h.lo h.sees.le h.full⟩

theorem ObjInv.gt (h : ObjInv json seps a i q 1 start ks ke) : a < i := by
  have := h.sees.le
  by_cases ha : a = i
  · subst ha
    have := h.sees.lev
    rw [upto_self] at this
    cases this
  · omega

/-- Level 1 outside strings is directly inside the object. -/
theorem ObjInv.direct (h : ObjInv json seps a i false 1 start ks ke) (hi : i ≤ json.length) : Direct ((json.drop a).take (i - a)) := by
  refine ⟨h.sees.str, h.sees.lev, fun p r hpr hne => ?_⟩
  have hl := congrArg List.length hpr
  have ha := h.sees.le
  simp only [List.length_take, List.length_drop, List.length_append] at hl
  have hp : 0 < p.length := List.length_pos_iff.2 hne
  have hpe : p = (json.drop a).take p.length := by
    have := congrArg (List.take p.length) hpr
    rw [List.take_take, List.take_append_of_le_length (Nat.le_refl _), List.take_length, Nat.min_eq_left (by omega)] at this
    exact this.symm
  have := h.inside (a + p.length) (by omega) (by omega)
  unfold upto at this
  rw [show a + p.length - a = p.length by omega, ← hpe] at this
  exact this

theorem drop_split (ha : a ≤ i) (hc : json[i]? = some c) : json.drop a = (json.drop a).take (i - a) ++ c :: json.drop (i + 1) := by
  have h1 := List.take_append_drop (i - a) (json.drop a)
  rw [List.drop_drop, show a + (i - a) = i by omega] at h1
  have h2 : json.drop i = c :: json.drop (i + 1) := by
    have hi := lt_of_getElem? hc
    rw [List.drop_eq_getElem_cons hi]
    congr 1
    rw [List.getElem?_eq_getElem hi] at hc
    exact Option.some.inj hc
  rw [← h2]; exact h1.symm

/-- At a colon the key is known. -/
theorem ObjInv.colon (h : ObjInv json seps a i false 1 start ks ke) (hc : json[i]? = some 58) (hn : Named (json.drop a)) :
    ∃ k, slice json ((ks : Int) + 1) (ke : Int) = .ok k := by
  have hi := lt_of_getElem? hc
  have := h.key rfl (hn _ _ (drop_split h.sees.le hc) (h.direct (by omega)))
  have := h.kend
  rw [show ((ks : Int) + 1) = ((ks + 1 : Nat) : Int) by omega]
  exact ⟨_, slice_range (by omega) (by omega)⟩

theorem ws_of_space {lo hi : Nat} (h : ∀ m b, lo ≤ m → m < hi → json[m]? = some b → space b = true) : Ws ((json.drop lo).take (hi - lo)) := by
  unfold Ws
  rw [List.all_eq_true]
  intro x hx
  obtain ⟨m, hm⟩ := List.getElem?_of_mem hx
  have hm' := lt_of_getElem? hm
  simp only [List.length_take] at hm'
  rw [slice_get rfl (by omega)] at hm
  have := h _ x (by omega) (by omega) hm
  exact this

/-- At an end there is more than whitespace, or whitespace that is not bad. -/
theorem ObjInv.given {ends : List UInt8} {bad : Nat → Prop} (h : ObjInv json seps a i false 1 start ks ke) (hc : json[i]? = some c)
    (he : c ∈ ends) (hg : Given seps ends bad (json.drop a)) :
    (∃ m b, start ≤ m ∧ m < i ∧ json[m]? = some b ∧ space b = false) ∨
      ((∀ m b, start ≤ m → m < i → json[m]? = some b → space b = true) ∧ ¬ bad (i - start)) := by
  rcases h.full with h0 | h0 | ⟨b, d, h1, h2, h3, h4, h5⟩
  · have := h.gt; omega
  · exact .inl h0
  · by_cases hall : ∀ m b, start ≤ m → m < i → json[m]? = some b → space b = true
    · refine .inr ⟨hall, fun hbad => ?_⟩
      have hlt := h.hi
      have hi := lt_of_getElem? hc
      refine hg _ d _ c (json.drop (i + 1)) ?_ h3 he (ws_of_space hall) ?_ h5
      · rw [h1, ← drop_split (a := b + 1) (by omega) hc]
        exact drop_split h4 h2
      · rw [List.length_take, List.length_drop, Nat.min_eq_left (by omega)]; exact hbad
    · simp only [Classical.not_forall] at hall
      obtain ⟨m, b, h1, h2, h3, h4⟩ := hall
      exact .inl ⟨m, b, h1, h2, h3, by simpa using h4⟩

/-- A separator directly inside starts anew. -/
theorem ObjInv.restart (h : ObjInv json seps a i false 1 start ks ke) (hb : json[a]? = some 123) (hc : json[i]? = some c)
    (hs : c ∈ seps) (hne : c ≠ 34 ∧ c ≠ 91 ∧ c ≠ 123 ∧ c ≠ 93 ∧ c ≠ 125) : ObjInv json seps a (i + 1) false 1 (i + 1) ks ke := by
  obtain ⟨h34, h1, h2, h3, h4⟩ := hne
  have ho := h.out hb hc h34 (lv' := 1) (by simp [h1, h2, h3, h4]) (fun _ => ⟨h3, h4⟩)
  exact ⟨ho.sees, ho.inside, by have := h.sees.le; omega, Nat.le_refl _, .none _, ho.key, ho.kin, ho.kend,
    .inr (.inr ⟨i, c, rfl, hc, hs, h.sees.le, h.direct (Nat.le_of_lt (lt_of_getElem? hc))⟩)⟩

/-! ### What has been read -/

/-- Every colon so far that is directly inside comes after a string; as long as no string has
ended there is no key. -/
structure HistN (json : Bytes) (a i : Nat) (q : Bool) (ks ke : Nat) : Prop where
  named : ∀ b, a ≤ b → b < i → json[b]? = some 58 → Direct ((json.drop a).take (b - a)) → (upto json a b).closed = true
  zero : (upto json a i).closed = false → ke = 0 ∧ (q = false → ks = 0)

/-- The byte at `b` is a separator directly inside and since then there was only whitespace. -/
structure Pending (json : Bytes) (seps : List UInt8) (a i b : Nat) : Prop where
  ge : a ≤ b
  lt : b < i
  sep : ∃ c, json[b]? = some c ∧ c ∈ seps
  direct : Direct ((json.drop a).take (b - a))
  blank : ∀ m x, b < m → m < i → json[m]? = some x → space x = true

structure HistG (json : Bytes) (seps ends : List UInt8) (bad : Nat → Prop) (a i : Nat) (q : Bool) (lv : Int) (start : Nat) : Prop where
  given : ∀ b e, Pending json seps a e b → e < i → (∃ c, json[e]? = some c ∧ c ∈ ends) → ¬ bad (e - (b + 1))
  pend : ∀ b, Pending json seps a i b → start = b + 1 ∧ q = false ∧ lv = 1

variable {ends : List UInt8} {bad : Nat → Prop}

theorem Pending.succ {b : Nat} (h : Pending json seps a (i + 1) b) :
    (b = i ∧ (∃ c, json[i]? = some c ∧ c ∈ seps) ∧ Direct ((json.drop a).take (i - a))) ∨
      (Pending json seps a i b ∧ ∀ c, json[i]? = some c → space c = true) := by
  obtain ⟨h1, h2, h3, h4, h5⟩ := h
  by_cases hb : b = i
  · subst hb; exact .inl ⟨rfl, h3, h4⟩
  · exact .inr ⟨⟨h1, by omega, h3, h4, fun m x m1 m2 => h5 m x m1 (by omega)⟩, fun c hc => h5 i c (by omega) (by omega) hc⟩

theorem Sees.of_direct (h : Sees json a i q lv) (hd : Direct ((json.drop a).take (i - a))) : q = false ∧ lv = 1 :=
  ⟨h.str.symm.trans hd.1, h.lev.symm.trans hd.2.1⟩

theorem HistN.init (json : Bytes) (a : Nat) (q : Bool) : HistN json a a q 0 0 := ⟨fun b h1 h2 => by omega, fun _ => ⟨rfl, fun _ => rfl⟩⟩

theorem HistG.init (json : Bytes) (a start : Nat) (q : Bool) : HistG json seps ends bad a a q lv start :=
  ⟨fun b e h h2 => by have := h.ge; have := h.lt; omega, fun b h => by have := h.ge; have := h.lt; omega⟩

theorem HistN.next {q' : Bool} {ks' ke' : Nat} (h : HistN json a i q ks ke) (hs : Sees json a i q lv)
    (hn : json[i]? = some 58 → q = false → lv = 1 → (upto json a i).closed = true)
    (hz : (upto json a (i + 1)).closed = false → (upto json a i).closed = false ∧ ke' = ke ∧ (q' = false → q = false ∧ ks' = ks)) :
    HistN json a (i + 1) q' ks' ke' := by
  refine ⟨fun b h1 h2 h3 h4 => ?_, fun hc => ?_⟩
  · by_cases hb : b = i
    · subst hb
      obtain ⟨e1, e2⟩ := hs.of_direct h4
      exact hn h3 e1 e2
    · exact h.named b h1 (by omega) h3 h4
  · obtain ⟨h1, h2, h3⟩ := hz hc
    obtain ⟨z1, z2⟩ := h.zero h1
    exact ⟨by rw [h2, z1], fun hq => by obtain ⟨e1, e2⟩ := h3 hq; rw [e2, z2 e1]⟩

theorem HistG.next {q' : Bool} {lv' : Int} {start' : Nat} (h : HistG json seps ends bad a i q lv start) (hs : Sees json a i q lv)
    (hb : (∃ c, json[i]? = some c ∧ c ∈ ends) → q = false → lv = 1 →
      (∀ m x, start ≤ m → m < i → json[m]? = some x → space x = true) → ¬ bad (i - start))
    (h1 : (∃ c, json[i]? = some c ∧ c ∈ seps) → q = false → lv = 1 → start' = i + 1 ∧ q' = false ∧ lv' = 1)
    (h2 : (∀ c, json[i]? = some c → space c = true) → q = false → start' = start ∧ q' = q ∧ lv' = lv) :
    HistG json seps ends bad a (i + 1) q' lv' start' := by
  refine ⟨fun b e hp he hx => ?_, fun b hp => ?_⟩
  · by_cases hi : e = i
    · subst hi
      obtain ⟨p1, p2, p3⟩ := h.pend b hp
      rw [← p1]
      exact hb hx p2 p3 (fun m x m1 m2 => hp.blank m x (by omega) m2)
    · exact h.given b e hp (by omega) hx
  · rcases hp.succ with ⟨rfl, h3, h4⟩ | ⟨h3, h4⟩
    · obtain ⟨e1, e2⟩ := hs.of_direct h4
      exact h1 h3 e1 e2
    · obtain ⟨p1, p2, p3⟩ := h.pend b h3
      obtain ⟨e1, e2, e3⟩ := h2 h4 p2
      exact ⟨e1.trans p1, e2.trans p2, e3.trans p3⟩

/-- The loop is over: the text has ended, or its bracket is closed. -/
def Over (json : Bytes) (a i : Nat) : Prop :=
  json.length ≤ i ∨ (∃ c, json[i]? = some c ∧ (c = 93 ∨ c = 125)) ∧ a ≤ i ∧ (upto json a (i + 1)).depth = 0

theorem Over.closed (hs : Sees json a i false 1) (hc : json[i]? = some c) (h : c = 93 ∨ c = 125) : Over json a i := by
  have h34 : c ≠ 34 := by rcases h with rfl | rfl <;> decide
  have := (hs.outside hc h34).1.lev
  refine .inr ⟨⟨c, hc, h⟩, hs.le, ?_⟩
  rcases h with rfl | rfl <;> simpa using this

/-- After that nothing is directly inside. -/
theorem Over.not_direct {b : Nat} (ho : Over json a i) (hb : i < b) (hl : b ≤ json.length) (hd : Direct ((json.drop a).take (b - a))) : False := by
  rcases ho with h | ⟨-, h1, h2⟩
  · omega
  · have := hd.2.2 ((json.drop a).take (i + 1 - a)) (((json.drop a).take (b - a)).drop (i + 1 - a)) ?_ ?_
    · unfold upto at h2; omega
    · have h3 := List.take_append_drop (i + 1 - a) ((json.drop a).take (b - a))
      rw [List.take_take, Nat.min_eq_left (by omega)] at h3
      exact h3.symm
    · intro h0
      have := congrArg List.length h0
      simp only [List.length_take, List.length_drop, List.length_nil] at this
      omega

theorem split_at {pre post : Bytes} (h : json.drop a = pre ++ c :: post) :
    json[a + pre.length]? = some c ∧ (json.drop a).take (a + pre.length - a) = pre ∧ a + pre.length < json.length := by
  have h1 : json[a + pre.length]? = some c := by
    rw [← List.getElem?_drop, h, List.getElem?_append_right (Nat.le_refl _)]
    simp
  refine ⟨h1, ?_, lt_of_getElem? h1⟩
  rw [show a + pre.length - a = pre.length by omega, h]
  simp

theorem HistN.over (h : HistN json a i q ks ke) (ho : Over json a i) : Named (json.drop a) := by
  intro pre post hpre hd
  obtain ⟨h1, h2, h3⟩ := split_at hpre
  rw [← h2] at hd ⊢
  rcases Nat.lt_or_ge (a + pre.length) i with hlt | hge
  · exact h.named _ (by omega) hlt h1 hd
  · exfalso
    by_cases he : a + pre.length = i
    · rcases ho with ho | ⟨⟨c, hc, ho⟩, -⟩
      · omega
      · rw [he, hc] at h1; injection h1 with h1; subst h1; rcases ho with ho | ho <;> cases ho
    · exact ho.not_direct (by omega) (by omega) hd

theorem HistG.over (h : HistG json seps ends bad a i q lv start) (ho : Over json a i)
    (hsep : 93 ∉ seps ∧ 125 ∉ seps)
    (hb : ∀ c, json[i]? = some c → c ∈ ends → q = false → lv = 1 →
      (∀ m x, start ≤ m → m < i → json[m]? = some x → space x = true) → ¬ bad (i - start)) : Given seps ends bad (json.drop a) := by
  intro pre c ws e post ht hc he hw hbad hd
  obtain ⟨h1, h2, h3⟩ := split_at ht
  have ht' : json.drop a = (pre ++ c :: ws) ++ e :: post := by rw [ht]; simp
  obtain ⟨h4, h5, h6⟩ := split_at ht'
  have hlen : (pre ++ c :: ws).length = pre.length + 1 + ws.length := by simp; omega
  rw [hlen] at h4 h6
  rw [← h2] at hd
  have hblank : ∀ m x, a + pre.length < m → m < a + (pre.length + 1 + ws.length) → json[m]? = some x → space x = true := by
    intro m x m1 m2 hx
    have : json[m]? = ws[m - (a + pre.length + 1)]? := by
      have e1 : json[m]? = (json.drop a)[m - a]? := by rw [List.getElem?_drop]; congr 1; omega
      rw [e1, ht, List.getElem?_append_right (by omega)]
      rw [show m - a - pre.length = (m - (a + pre.length + 1)) + 1 by omega, List.getElem?_cons_succ,
        List.getElem?_append_left (by omega)]
    rw [this] at hx
    unfold Ws at hw
    exact List.all_eq_true.1 hw x (List.mem_of_getElem? hx)
  have hp : Pending json seps a (a + (pre.length + 1 + ws.length)) (a + pre.length) :=
    ⟨by omega, by omega, ⟨c, h1, hc⟩, hd, hblank⟩
  have hbad' : bad (a + (pre.length + 1 + ws.length) - (a + pre.length + 1)) := by
    rw [show a + (pre.length + 1 + ws.length) - (a + pre.length + 1) = ws.length by omega]; exact hbad
  rcases Nat.lt_or_ge (a + (pre.length + 1 + ws.length)) i with hlt | hge
  · exact h.given _ _ hp hlt ⟨e, h4, he⟩ hbad'
  · by_cases hei : a + (pre.length + 1 + ws.length) = i
    · rw [hei] at hp h4 hbad'
      obtain ⟨p1, p2, p3⟩ := h.pend _ hp
      refine hb e h4 he p2 p3 (fun m x m1 m2 => hp.blank m x (by omega) m2) ?_
      rw [p1]; exact hbad'
    · rcases ho with ho | ⟨⟨d, hd', ho⟩, ho'⟩
      · omega
      · rcases Nat.lt_or_ge i (a + pre.length) with hl | hg
        · exact Over.not_direct (.inr ⟨⟨d, hd', ho⟩, ho'⟩) hl (by omega) hd
        · by_cases hbi : a + pre.length = i
          · rw [hbi, hd'] at h1
            injection h1 with h1; subst h1
            rcases ho with rfl | rfl
            · exact hsep.1 hc
            · exact hsep.2 hc
          · have := hblank i d (by omega) (by omega) hd'
            rcases ho with rfl | rfl <;> cases this

/-! ### `cleanValueString` of whitespace -/

/-- Whitespace of this length is refused by `cleanValueString`. -/
def badLen (n : Nat) : Prop := n = 0 ∨ 4 ≤ n

theorem cvsUp_blank {v : Bytes} (h : ∀ (m : Nat) (x : UInt8), v[m]? = some x → space x = true) {i : Nat} (hi : i < v.length) : cvsUp v i = v.length - 1 := by
  fun_induction cvsUp v i with
  | case1 i hn => have := List.getElem?_eq_none_iff.1 hn; omega
  | case2 i c hc hs ih =>
    simp only [Bool.and_eq_true, decide_eq_true_eq] at hs
    exact ih hs.2
  | case3 i c hc hs =>
    simp only [h _ _ hc, Bool.true_and, decide_eq_true_eq] at hs
    omega

theorem cvsDown_blank {v : Bytes} (h : ∀ (m : Nat) (x : UInt8), v[m]? = some x → space x = true) : ∀ {n : Nat}, n < v.length →
    cvsDown v n = min n 1
  | 0, _ => by simp [cvsDown]
  | n + 1, hn => by
    rw [cvsDown]
    obtain ⟨c, hc⟩ := getElem_ex hn
    rw [hc]
    simp only [h _ _ hc, Bool.true_and, decide_eq_true_eq]
    split
    · rw [cvsDown_blank h (by omega)]; omega
    · omega

theorem cleanString_blank {v : Bytes} (h : ∀ (m : Nat) (x : UInt8), v[m]? = some x → space x = true) :
    (badLen v.length → cleanValueString v = .panic) ∧ (¬ badLen v.length → ∃ w, cleanValueString v = .ok w) := by
  unfold cleanValueString badLen
  by_cases h0 : v.length = 0
  · simp [h0]
  · rw [if_neg (by intro h1; rw [beq_iff_eq] at h1; omega), cvsUp_blank h (by omega), cvsDown_blank h (by omega)]
    obtain ⟨c, hc⟩ := getElem_ex (json := v) (i := v.length - 1) (by omega)
    have h34 : c ≠ 34 := by rintro rfl; exact absurd (h _ _ hc) (by decide)
    have h1 : idx v ((v.length - 1 : Nat) : Int) = .ok c := by unfold idx at?; rw [if_neg (by omega)]; simp [hc]
    unfold unquoteSlice
    rw [h1]
    simp only [Out.bind_ok, beq_iff_eq, h34, if_false]
    unfold slice
    constructor
    · intro hb
      rw [if_neg (by omega)]
    · intro hb
      rw [if_pos (by omega)]
      exact ⟨_, rfl⟩

/-- What the loops do with the bytes from `start` to `i`. -/
theorem region_blank (h1 : start ≤ i) (hi : i ≤ json.length)
    (h : ∀ m b, start ≤ m → m < i → json[m]? = some b → space b = true) :
    (badLen (i - start) → (slice json start i >>= cleanValueString) = .panic) ∧
      (¬ badLen (i - start) → ∃ w, (slice json start i >>= cleanValueString) = .ok w) := by
  rw [slice_range h1 hi]
  have hl : ((json.drop start).take (i - start)).length = i - start := by
    rw [List.length_take, List.length_drop, Nat.min_eq_left (by omega)]
  have := cleanString_blank (v := (json.drop start).take (i - start)) (fun m x hm => by
    have hm' := lt_of_getElem? hm
    rw [slice_get rfl (by omega)] at hm
    exact h _ x (by omega) (by omega) hm)
  rwa [hl] at this

theorem region_full {m : Nat} {b : UInt8} (hp : Paired json start i false) (hi : i ≤ json.length) (h1 : start ≤ m) (h2 : m < i)
    (h3 : json[m]? = some b) (h4 : space b = false) : ∃ w, (slice json start i >>= cleanValueString) = .ok w := by
  rw [slice_range (by omega) hi]
  exact cleanString_safe (hp.piece hi) (m := m - start) (b := b)
    (by rw [slice_get rfl (by omega), show start + (m - start) = m by omega]; exact h3) h4

/-! ### `GetKeys`, `GetValues`, `GetKeysValues` -/

/-- The invariant of the three loops. -/
structure KvInv (json : Bytes) (nm : Prop) (seps ends : List UInt8) (a i : Nat) (s : KvSt) : Prop where
  obj : ObjInv json seps a i s.inQuote s.level s.start s.keyStart s.keyEnd
  histN : nm → HistN json a i s.inQuote s.keyStart s.keyEnd
  histG : HistG json seps ends badLen a i s.inQuote s.level s.start

variable {nm : Prop} {s : KvSt}

theorem KvInv.quote (h : KvInv json nm seps ends a i s) (hb : json[a]? = some 123) (hc : json[i]? = some 34) (hs : 34 ∉ seps)
    (he : 34 ∉ ends) : KvInv json nm seps ends a (i + 1) (kvQuote json i s) := by
  obtain ⟨ho, hn, hg⟩ := h
  have g : ∀ q', HistG json seps ends badLen a (i + 1) q' s.level s.start := fun q' => by
    refine hg.next ho.sees ?_ ?_ ?_
    · rintro ⟨c, hc', hm⟩; rw [hc] at hc'; cases hc'; exact absurd hm he
    · rintro ⟨c, hc', hm⟩; rw [hc] at hc'; cases hc'; exact absurd hm hs
    · intro hsp; exact absurd (hsp _ hc) (by decide)
  unfold kvQuote
  rcases ho.quote hb hc with ⟨h1, h2, h3, h4⟩ | ⟨h1, h2, h3, h4⟩ | ⟨h1, h3, h4⟩
  · rw [if_pos h1, h2]
    refine ⟨h3, fun x => (hn x).next ho.sees ?_ ?_, g _⟩
    · rw [hc]; intro hx; cases hx
    · rw [h4]; intro hx; cases hx
  · rw [if_pos h1, h2]
    refine ⟨by simp only; rw [h1]; exact h3, fun x => (hn x).next ho.sees ?_ ?_, g _⟩
    · rw [hc]; intro hx; cases hx
    · rw [h4]; intro hx; exact ⟨hx, rfl, fun h => by rw [h1] at h; cases h⟩
  · rw [if_neg (by simp [h1])]
    refine ⟨h3, fun x => (hn x).next ho.sees ?_ ?_, g _⟩
    · rw [hc]; intro hx; cases hx
    · rw [h4]; intro hx; exact ⟨hx, rfl, fun h => by cases h⟩

/-- A byte in a string. -/
theorem KvInv.str (h : KvInv json nm seps ends a i s) (hq : s.inQuote = true) (hb : json[a]? = some 123) (hc : json[i]? = some c)
    (hne : c ≠ 34) : KvInv json nm seps ends a (i + 1) s := by
  obtain ⟨ho, hn, hg⟩ := h
  rw [hq] at ho
  have hi := ho.sees.inside hc (.inl hne)
  refine ⟨by rw [hq]; exact ho.str hb hc (.inl hne), fun x => (hn x).next (lv := s.level) (by rw [hq]; exact ho.sees) ?_ ?_,
    hg.next (by rw [hq]; exact ho.sees) ?_ ?_ ?_⟩
  · intro _ h; rw [hq] at h; cases h
  · rw [hi.2]; intro hx; exact ⟨hx, rfl, fun h => by rw [hq] at h; cases h⟩
  · intro _ h; rw [hq] at h; cases h
  · intro _ h; rw [hq] at h; cases h
  · intro _ h; rw [hq] at h; cases h

/-- A byte outside that changes at most the level. -/
theorem KvInv.out (h : KvInv json nm seps ends a i s) (hq : s.inQuote = false) (hb : json[a]? = some 123) (hc : json[i]? = some c)
    (hne : c ≠ 34) {lv' : Int}
    (hlv : (if c = 91 ∨ c = 123 then s.level + 1 else if c = 93 ∨ c = 125 then s.level - 1 else s.level) = lv')
    (h1 : s.level = 1 → c ∉ seps ∧ c ∉ ends ∧ (nm → c ≠ 58) ∧ c ≠ 93 ∧ c ≠ 125) {ks' : List Bytes} {vs : List Bytes} :
    KvInv json nm seps ends a (i + 1) { s with level := lv', keys := ks', values := vs } := by
  obtain ⟨ho, hn, hg⟩ := h
  have hs := ho.sees
  rw [hq] at ho
  have hi := ho.sees.outside hc hne
  refine ⟨by simp only; rw [hq]; exact ho.out hb hc hne hlv (fun h => (h1 h).2.2.2), fun x => (hn x).next hs ?_ ?_, hg.next hs ?_ ?_ ?_⟩
  · intro h58 _ hl
    rw [hc] at h58; injection h58 with h58
    exact absurd h58 ((h1 hl).2.2.1 x)
  · rw [hi.2]; intro hx; exact ⟨hx, rfl, fun h => ⟨h, rfl⟩⟩
  · rintro ⟨d, hd, hm⟩ _ hl
    rw [hc] at hd; cases hd
    exact absurd hm (h1 hl).2.1
  · rintro ⟨d, hd, hm⟩ _ hl
    rw [hc] at hd; cases hd
    exact absurd hm (h1 hl).1
  · intro hsp _
    have hsp := hsp _ hc
    refine ⟨rfl, rfl, ?_⟩
    rw [← hlv]
    have : c ≠ 91 ∧ c ≠ 123 ∧ c ≠ 93 ∧ c ≠ 125 := by
      refine ⟨?_, ?_, ?_, ?_⟩ <;> rintro rfl <;> cases hsp
    simp [this]

/-- A key is read only after a string. -/
theorem HistN.colon {k : Bytes} (h : HistN json a i false ks ke) (hk : slice json ((ks : Int) + 1) (ke : Int) = .ok k) :
    (upto json a i).closed = true := by
  cases hc : (upto json a i).closed with
  | true => rfl
  | false =>
    obtain ⟨h1, h2⟩ := h.zero hc
    rw [h1, h2 rfl] at hk
    cases hk

theorem outside_ne {x y : Bool} (h : (!isJSONChar x y c) = true) :
    c ≠ 34 ∧ c ≠ 91 ∧ c ≠ 123 ∧ c ≠ 93 ∧ c ≠ 125 ∧ (x = true → c ≠ 44) ∧ (y = true → c ≠ 58) := by
  refine ⟨?_, ?_, ?_, ?_, ?_, fun hx => ?_, fun hx => ?_⟩
  all_goals rintro rfl
  all_goals simp_all [isJSONChar]

theorem keys_loop (hb : json[a]? = some 123) {s : KvSt} (h : KvInv json True [] [] a i s) :
    After (fun _ => Named (json.drop a)) (fun _ => ¬ Named (json.drop a)) (forUp json.length (keysBody json) i s) := by
  refine forUp_inv (P := fun i s => KvInv json True [] [] a i s) ?_ (fun i s hi h => (h.histN trivial).over (.inl hi)) h
  intro i s hi h
  obtain ⟨c, hc⟩ := getElem_ex hi
  unfold keysBody
  simp only [hc]
  split
  · rename_i hj
    obtain ⟨h1, h2, h3, h4, h5, h6, h7⟩ := outside_ne hj
    by_cases hq : s.inQuote = true
    · exact h.str hq hb hc h1
    · exact h.out (by simpa using hq) hb hc h1 (by simp [h2, h3, h4, h5]) (fun _ => ⟨by simp, by simp, fun _ => h7 rfl, h4, h5⟩)
  · split
    · rename_i h34
      have h34 : c = 34 := by simpa using h34
      subst h34
      exact h.quote hb hc (by simp) (by simp)
    · rename_i h34
      have h34 : c ≠ 34 := by simpa using h34
      split
      · exact h.str (by assumption) hb hc h34
      · rename_i hq
        have hq : s.inQuote = false := by simpa using hq
        split
        · rename_i hop
          simp only [Bool.or_eq_true, beq_iff_eq] at hop
          refine h.out hq hb hc h34 (by rw [if_pos hop]) (fun _ => ?_)
          rcases hop with rfl | rfl <;> simp
        · rename_i hop
          simp only [Bool.or_eq_true, beq_iff_eq, not_or] at hop
          split
          · rename_i hcl
            simp only [Bool.or_eq_true, beq_iff_eq] at hcl
            split
            · rename_i hl
              have hl : s.level = 1 := by simpa using hl
              refine (h.histN trivial).over (.closed (c := c) ?_ hc hcl)
              have := h.obj.sees
              rwa [hq, hl] at this
            · rename_i hl
              have hl : s.level ≠ 1 := by simpa using hl
              exact h.out hq hb hc h34 (by rw [if_neg (by simp [hop]), if_pos hcl]) (fun h => absurd h hl)
          · rename_i hcl
            simp only [Bool.or_eq_true, beq_iff_eq, not_or] at hcl
            split
            · rename_i h58
              have h58 : c = 58 := by simpa using h58
              subst h58
              split
              · rename_i hl
                have hl : s.level = 1 := by simpa using hl
                have ho := h.obj
                rw [hq, hl] at ho
                split
                · rename_i k hk
                  have hn := h.histN trivial
                  rw [hq] at hn
                  have hclo := hn.colon hk
                  have hout := ho.sees.outside hc (by decide)
                  refine ⟨?_, fun _ => ?_, ?_⟩
                  · simp only; rw [hq, hl]
                    exact ho.out hb hc (by decide) (by simp) (fun _ => by decide)
                  · refine (h.histN trivial).next h.obj.sees (fun _ _ _ => hclo) ?_
                    rw [hout.2, hclo]; intro hx; cases hx
                  · refine h.histG.next h.obj.sees ?_ ?_ ?_
                    · rintro ⟨d, hd, hm⟩; simp at hm
                    · rintro ⟨d, hd, hm⟩; simp at hm
                    · intro hsp; cases hsp _ hc
                · rename_i hne
                  intro hN
                  obtain ⟨k, hk⟩ := ho.colon hc hN
                  exact hne k hk
              · rename_i hl
                have hl : s.level ≠ 1 := by simpa using hl
                exact h.out hq hb hc h34 (by simp) (fun h => absurd h hl)
            · rename_i h58
              have h58 : c ≠ 58 := by simpa using h58
              exact h.out hq hb hc h34 (by simp [hop, hcl]) (fun _ => ⟨by simp, by simp, fun _ => h58, hcl.1, hcl.2⟩)

/-- At an end directly inside: what the loop makes of the bytes since `start`. -/
theorem KvInv.cut (h : KvInv json nm seps ends a i s) (hq : s.inQuote = false) (hl : s.level = 1) (hc : json[i]? = some c) (he : c ∈ ends) :
    (∃ v, (slice json s.start i >>= cleanValueString) = .ok v ∧
      ((∀ m b, s.start ≤ m → m < i → json[m]? = some b → space b = true) → ¬ badLen (i - s.start))) ∨
    ((∀ v, (slice json s.start i >>= cleanValueString) ≠ .ok v) ∧ ¬ Given seps ends badLen (json.drop a)) := by
  have ho := h.obj
  rw [hq, hl] at ho
  have hi := lt_of_getElem? hc
  by_cases hx : ∃ v, (slice json s.start i >>= cleanValueString) = .ok v
  · obtain ⟨v, hv⟩ := hx
    refine .inl ⟨v, hv, fun hall hbad => ?_⟩
    rw [(region_blank ho.hi (by omega) hall).1 hbad] at hv
    cases hv
  · refine .inr ⟨fun v hv => hx ⟨v, hv⟩, fun hg => hx ?_⟩
    rcases ho.given hc he hg with ⟨m, b, h1, h2, h3, h4⟩ | ⟨h1, h2⟩
    · exact region_full ho.pair (by omega) h1 h2 h3 h4
    · exact (region_blank ho.hi (by omega) h1).2 h2

/-- A comma or a colon directly inside. -/
theorem KvInv.sep (h : KvInv json nm seps ends a i s) (hq : s.inQuote = false) (hl : s.level = 1) (hb : json[a]? = some 123)
    (hc : json[i]? = some c) (hs : c ∈ seps) (hne : c = 44 ∨ c = 58)
    (hcut : c ∈ ends → (∀ m b, s.start ≤ m → m < i → json[m]? = some b → space b = true) → ¬ badLen (i - s.start))
    (hclo : nm → c = 58 → (upto json a i).closed = true) {ks' vs : List Bytes} :
    KvInv json nm seps ends a (i + 1) { s with start := i + 1, keys := ks', values := vs } := by
  have ho := h.obj
  rw [hq, hl] at ho
  have h34 : c ≠ 34 := by rcases hne with rfl | rfl <;> decide
  have hout := ho.sees.outside hc h34
  refine ⟨?_, fun x => ?_, ?_⟩
  · simp only; rw [hq, hl]
    exact ho.restart hb hc hs (by rcases hne with rfl | rfl <;> decide)
  · refine (h.histN x).next h.obj.sees (fun h58 _ _ => ?_) ?_
    · rw [hc] at h58; injection h58 with h58
      exact hclo x h58
    · rw [hout.2]; intro hx; exact ⟨hx, rfl, fun h => ⟨h, rfl⟩⟩
  · refine h.histG.next h.obj.sees ?_ ?_ ?_
    · rintro ⟨d, hd, hm⟩ _ _ hall
      rw [hc] at hd; cases hd
      exact hcut hm hall
    · intro _ _ _; exact ⟨rfl, hq, hl⟩
    · intro hsp _
      have := hsp _ hc
      rcases hne with rfl | rfl <;> cases this

abbrev valSeps : List UInt8 := [58, 44]
abbrev valEnds : List UInt8 := [44, 93, 125]

theorem values_loop (hb : json[a]? = some 123) {s : KvSt} (h : KvInv json False valSeps valEnds a i s) :
    After (fun _ => Given valSeps valEnds badLen (json.drop a)) (fun _ => ¬ Given valSeps valEnds badLen (json.drop a))
      (forUp json.length (valuesBody json) i s) := by
  refine forUp_inv (P := fun i s => KvInv json False valSeps valEnds a i s) ?_
    (fun i s hi h => h.histG.over (.inl hi) (by decide) (fun c hc => by have := lt_of_getElem? hc; omega)) h
  intro i s hi h
  obtain ⟨c, hc⟩ := getElem_ex hi
  unfold valuesBody
  simp only [hc]
  split
  · rename_i hj
    obtain ⟨h1, h2, h3, h4, h5, h6, h7⟩ := outside_ne hj
    by_cases hq : s.inQuote = true
    · exact h.str hq hb hc h1
    · exact h.out (by simpa using hq) hb hc h1 (by simp [h2, h3, h4, h5])
        (fun _ => ⟨by simp [h6 rfl, h7 rfl], by simp [h6 rfl, h4, h5], fun _ => h7 rfl, h4, h5⟩)
  · split
    · rename_i h34
      have h34 : c = 34 := by simpa using h34
      subst h34
      exact h.quote hb hc (by decide) (by decide)
    · rename_i h34
      have h34 : c ≠ 34 := by simpa using h34
      split
      · exact h.str (by assumption) hb hc h34
      · rename_i hq
        have hq : s.inQuote = false := by simpa using hq
        split
        · rename_i hop
          simp only [Bool.or_eq_true, beq_iff_eq] at hop
          refine h.out hq hb hc h34 (by rw [if_pos hop]) (fun _ => ?_)
          rcases hop with rfl | rfl <;> simp
        · rename_i hop
          simp only [Bool.or_eq_true, beq_iff_eq, not_or] at hop
          split
          · rename_i hcl
            simp only [Bool.or_eq_true, beq_iff_eq] at hcl
            split
            · rename_i hl
              have hl : s.level = 1 := by simpa using hl
              rcases h.cut hq hl hc (by rcases hcl with rfl | rfl <;> decide) with ⟨v, hv, hok⟩ | ⟨hv, hG⟩
              · rw [hv]
                refine h.histG.over (.closed (c := c) ?_ hc hcl) (by decide) (fun _ _ _ _ _ => hok)
                have := h.obj.sees
                rwa [hq, hl] at this
              · split
                · rename_i v hv'; exact absurd hv' (hv v)
                · exact hG
            · rename_i hl
              have hl : s.level ≠ 1 := by simpa using hl
              exact h.out hq hb hc h34 (by rw [if_neg (by simp [hop]), if_pos hcl]) (fun h => absurd h hl)
          · rename_i hcl
            simp only [Bool.or_eq_true, beq_iff_eq, not_or] at hcl
            split
            · rename_i h58
              have h58 : c = 58 := by simpa using h58
              subst h58
              split
              · rename_i hl
                have hl : s.level = 1 := by simpa using hl
                exact h.sep hq hl hb hc (by decide) (.inr rfl) (fun h => absurd h (by decide)) (fun h => h.elim)
              · rename_i hl
                have hl : s.level ≠ 1 := by simpa using hl
                exact h.out hq hb hc h34 (by simp) (fun h => absurd h hl)
            · rename_i h58
              have h58 : c ≠ 58 := by simpa using h58
              split
              · rename_i h44
                have h44 : c = 44 := by simpa using h44
                subst h44
                split
                · rename_i hl
                  have hl : s.level = 1 := by simpa using hl
                  rcases h.cut hq hl hc (by decide) with ⟨v, hv, hok⟩ | ⟨hv, hG⟩
                  · rw [hv]
                    exact h.sep hq hl hb hc (by decide) (.inl rfl) (fun _ => hok) (fun h => h.elim)
                  · split
                    · rename_i v hv'; exact absurd hv' (hv v)
                    · exact hG
                · rename_i hl
                  have hl : s.level ≠ 1 := by simpa using hl
                  exact h.out hq hb hc h34 (by simp) (fun h => absurd h hl)
              · rename_i h44
                have h44 : c ≠ 44 := by simpa using h44
                exact h.out hq hb hc h34 (by simp [hop, hcl]) (fun _ => ⟨by simp [h58, h44], by simp [h44, hcl], fun _ => h58, hcl.1, hcl.2⟩)

theorem keysValues_loop (hb : json[a]? = some 123) {s : KvSt} (h : KvInv json True valSeps valEnds a i s) :
    After (fun _ => Named (json.drop a) ∧ Given valSeps valEnds badLen (json.drop a))
      (fun _ => ¬ (Named (json.drop a) ∧ Given valSeps valEnds badLen (json.drop a))) (forUp json.length (keysValuesBody json) i s) := by
  refine forUp_inv (P := fun i s => KvInv json True valSeps valEnds a i s) ?_
    (fun i s hi h => ⟨(h.histN trivial).over (.inl hi),
      h.histG.over (.inl hi) (by decide) (fun c hc => by have := lt_of_getElem? hc; omega)⟩) h
  intro i s hi h
  obtain ⟨c, hc⟩ := getElem_ex hi
  unfold keysValuesBody
  simp only [hc]
  split
  · rename_i hj
    obtain ⟨h1, h2, h3, h4, h5, h6, h7⟩ := outside_ne hj
    by_cases hq : s.inQuote = true
    · exact h.str hq hb hc h1
    · exact h.out (by simpa using hq) hb hc h1 (by simp [h2, h3, h4, h5])
        (fun _ => ⟨by simp [h6 rfl, h7 rfl], by simp [h6 rfl, h4, h5], fun _ => h7 rfl, h4, h5⟩)
  · split
    · rename_i h34
      have h34 : c = 34 := by simpa using h34
      subst h34
      exact h.quote hb hc (by decide) (by decide)
    · rename_i h34
      have h34 : c ≠ 34 := by simpa using h34
      split
      · exact h.str (by assumption) hb hc h34
      · rename_i hq
        have hq : s.inQuote = false := by simpa using hq
        split
        · rename_i hop
          simp only [Bool.or_eq_true, beq_iff_eq] at hop
          refine h.out hq hb hc h34 (by rw [if_pos hop]) (fun _ => ?_)
          rcases hop with rfl | rfl <;> simp
        · rename_i hop
          simp only [Bool.or_eq_true, beq_iff_eq, not_or] at hop
          split
          · rename_i hcl
            simp only [Bool.or_eq_true, beq_iff_eq] at hcl
            split
            · rename_i hl
              have hl : s.level = 1 := by simpa using hl
              have hov : Over json a i := .closed (c := c) (by have := h.obj.sees; rwa [hq, hl] at this) hc hcl
              rcases h.cut hq hl hc (by rcases hcl with rfl | rfl <;> decide) with ⟨v, hv, hok⟩ | ⟨hv, hG⟩
              · rw [hv]
                exact ⟨(h.histN trivial).over hov, h.histG.over hov (by decide) (fun _ _ _ _ _ => hok)⟩
              · split
                · rename_i v hv'; exact absurd hv' (hv v)
                · exact fun h => hG h.2
            · rename_i hl
              have hl : s.level ≠ 1 := by simpa using hl
              exact h.out hq hb hc h34 (by rw [if_neg (by simp [hop]), if_pos hcl]) (fun h => absurd h hl)
          · rename_i hcl
            simp only [Bool.or_eq_true, beq_iff_eq, not_or] at hcl
            split
            · rename_i h58
              have h58 : c = 58 := by simpa using h58
              subst h58
              split
              · rename_i hl
                have hl : s.level = 1 := by simpa using hl
                have ho := h.obj
                rw [hq, hl] at ho
                split
                · rename_i k hk
                  have hn := h.histN trivial
                  rw [hq] at hn
                  exact h.sep hq hl hb hc (by decide) (.inr rfl) (fun h => absurd h (by decide)) (fun _ _ => hn.colon hk)
                · rename_i hne
                  intro hN
                  obtain ⟨k, hk⟩ := ho.colon hc hN.1
                  exact hne k hk
              · rename_i hl
                have hl : s.level ≠ 1 := by simpa using hl
                exact h.out hq hb hc h34 (by simp) (fun h => absurd h hl)
            · rename_i h58
              have h58 : c ≠ 58 := by simpa using h58
              split
              · rename_i h44
                have h44 : c = 44 := by simpa using h44
                subst h44
                split
                · rename_i hl
                  have hl : s.level = 1 := by simpa using hl
                  rcases h.cut hq hl hc (by decide) with ⟨v, hv, hok⟩ | ⟨hv, hG⟩
                  · rw [hv]
                    exact h.sep hq hl hb hc (by decide) (.inl rfl) (fun _ => hok) (fun _ h => absurd h (by decide))
                  · split
                    · rename_i v hv'; exact absurd hv' (hv v)
                    · exact fun h => hG h.2
                · rename_i hl
                  have hl : s.level ≠ 1 := by simpa using hl
                  exact h.out hq hb hc h34 (by simp) (fun h => absurd h hl)
              · rename_i h44
                have h44 : c ≠ 44 := by simpa using h44
                exact h.out hq hb hc h34 (by simp [hop, hcl]) (fun _ => ⟨by simp [h58, h44], by simp [h44, hcl], fun _ => h58, hcl.1, hcl.2⟩)

/-! ### `IterateKeyValue` -/

/-- The value of a region that is more than whitespace. -/
theorem ikValue_ok {st sp : Nat} (h1 : st ≤ sp) (h2 : sp < json.length) (hq : json[st]? = some 34 → json[sp]? = some 34 → st < sp) :
    ∃ v, ikValue json st sp = .ok v := unquote_ok h1 h2 hq

theorem ikValue_panic {st sp : Nat} (h : sp + 1 < st) (hl : st < json.length) (hq : json[st]? ≠ some 34) : ikValue json st sp = .panic := by
  obtain ⟨c, hc⟩ := getElem_ex hl
  have h34 : c ≠ 34 := fun h => hq (h ▸ hc)
  have h1 : idx json (st : Int) = .ok c := by unfold idx at?; rw [if_neg (by omega)]; simp [hc]
  unfold ikValue
  rw [h1]
  simp only [Out.bind_ok, beq_iff_eq, h34, if_false]
  unfold slice
  rw [if_neg (by omega)]

theorem first_bounds {lo hi : Nat} (hb : ∀ m b, lo ≤ m → m < hi → json[m]? = some b → space b = true) :
    firstNS json lo hi = none := by
  rcases firstNS_spec (json := json) (lo := lo) (hi := hi) with ⟨j, c, -, h2, h3, h4, h5, -⟩ | ⟨h, -⟩
  · rw [hb j c h2 h3 h4] at h5; cases h5
  · exact h

theorem last_bounds {lo hi : Nat} (hb : ∀ m b, lo ≤ m → m < hi → json[m]? = some b → space b = true) (hl : hi ≤ json.length) :
    lastNS json lo hi = none := by
  rcases lastNS_spec (json := json) (lo := lo) hl with ⟨j, c, -, h2, h3, h4, h5, -⟩ | ⟨h, -⟩
  · rw [hb j c h2 h3 h4] at h5; cases h5
  · exact h

/-- The invariant of the loop. -/
structure IkInv {σ : Type} (json : Bytes) (a i : Nat) (s : IkSt σ) : Prop where
  obj : ObjInv json [58] a i s.inQuote s.level s.start s.keyStart s.keyEnd
  histN : HistN json a i s.inQuote s.keyStart s.keyEnd
  histG : HistG json [58] [125] (fun _ => True) a i s.inQuote s.level s.start
  stop : s.stop + 1 ≤ i ∨ (s.stop = 0 ∧ i = a)
  behind : ∀ b, Pending json [58] a i b → s.stop + 1 ≤ b

section Ik
variable {σ : Type} {t : IkSt σ}

theorem IkInv.quote (h : IkInv json a i t) (hb : json[a]? = some 123) (hc : json[i]? = some 34) :
    IkInv json a (i + 1) (ikQuote json i t) := by
  obtain ⟨ho, hn, hg, hs, hd⟩ := h
  have g : ∀ q', HistG json [58] [125] (fun _ => True) a (i + 1) q' t.level t.start := fun q' => by
    refine hg.next ho.sees ?_ ?_ ?_
    · rintro ⟨c, hc', hm⟩; rw [hc] at hc'; cases hc'; exact absurd hm (by decide)
    · rintro ⟨c, hc', hm⟩; rw [hc] at hc'; cases hc'; exact absurd hm (by decide)
    · intro hsp; exact absurd (hsp _ hc) (by decide)
  have d : ∀ b, Pending json [58] a (i + 1) b → t.stop + 1 ≤ b := fun b hp => by
    rcases hp.succ with ⟨-, ⟨c, hc', hm⟩, -⟩ | ⟨h, -⟩
    · rw [hc] at hc'; cases hc'; exact absurd hm (by decide)
    · exact hd b h
  have st : t.stop + 1 ≤ i + 1 ∨ (t.stop = 0 ∧ i + 1 = a) := by omega
  unfold ikQuote
  rcases ho.quote hb hc with ⟨h1, h2, h3, h4⟩ | ⟨h1, h2, h3, h4⟩ | ⟨h1, h3, h4⟩
  · rw [if_pos h1, h2]
    refine ⟨h3, hn.next ho.sees ?_ ?_, g _, st, d⟩
    · rw [hc]; intro hx; cases hx
    · rw [h4]; intro hx; cases hx
  · rw [if_pos h1, h2]
    refine ⟨by simp only; rw [h1]; exact h3, hn.next ho.sees ?_ ?_, g _, st, d⟩
    · rw [hc]; intro hx; cases hx
    · rw [h4]; intro hx; exact ⟨hx, rfl, fun h => by rw [h1] at h; cases h⟩
  · rw [if_neg (by simp [h1])]
    refine ⟨h3, hn.next ho.sees ?_ ?_, g _, st, d⟩
    · rw [hc]; intro hx; cases hx
    · rw [h4]; intro hx; exact ⟨hx, rfl, fun h => by cases h⟩

theorem IkInv.str (h : IkInv json a i t) (hq : t.inQuote = true) (hb : json[a]? = some 123) (hc : json[i]? = some c)
    (hne : c ≠ 34) : IkInv json a (i + 1) t := by
  obtain ⟨ho, hn, hg, hs, hd⟩ := h
  rw [hq] at ho
  have hi := ho.sees.inside hc (.inl hne)
  refine ⟨by rw [hq]; exact ho.str hb hc (.inl hne), hn.next (lv := t.level) (by rw [hq]; exact ho.sees) ?_ ?_,
    hg.next (by rw [hq]; exact ho.sees) ?_ ?_ ?_, by omega, fun b hp => ?_⟩
  · intro _ h; rw [hq] at h; cases h
  · rw [hi.2]; intro hx; exact ⟨hx, rfl, fun h => by rw [hq] at h; cases h⟩
  · intro _ h; rw [hq] at h; cases h
  · intro _ h; rw [hq] at h; cases h
  · intro _ h; rw [hq] at h; cases h
  · rcases hp.succ with ⟨-, -, h⟩ | ⟨h, -⟩
    · exact absurd (ho.sees.of_direct h).1 (by simp)
    · exact hd b h

/-- A byte outside that changes at most the level. -/
theorem IkInv.out (h : IkInv json a i t) (hq : t.inQuote = false) (hb : json[a]? = some 123) (hc : json[i]? = some c)
    (hne : c ≠ 34) {lv' : Int}
    (hlv : (if c = 91 ∨ c = 123 then t.level + 1 else if c = 93 ∨ c = 125 then t.level - 1 else t.level) = lv')
    (h1 : t.level = 1 → c ≠ 58 ∧ c ≠ 93 ∧ c ≠ 125) {ky : Bytes} {u : σ} :
    IkInv json a (i + 1) { t with level := lv', key := ky, user := u } := by
  obtain ⟨ho, hn, hg, hst, hd⟩ := h
  have hs := ho.sees
  rw [hq] at ho
  have hi := ho.sees.outside hc hne
  refine ⟨by simp only; rw [hq]; exact ho.out hb hc hne hlv (fun h => (h1 h).2), hn.next hs ?_ ?_, hg.next hs ?_ ?_ ?_,
    by simp only; omega, fun b hp => ?_⟩
  · intro h58 _ hl
    rw [hc] at h58; injection h58 with h58
    exact absurd h58 (h1 hl).1
  · rw [hi.2]; intro hx; exact ⟨hx, rfl, fun h => ⟨h, rfl⟩⟩
  · rintro ⟨d, hd, hm⟩ _ hl
    rw [hc] at hd; cases hd
    exact absurd (by simpa using hm) (h1 hl).2.2
  · rintro ⟨d, hd, hm⟩ _ hl
    rw [hc] at hd; cases hd
    exact absurd (by simpa using hm) (h1 hl).1
  · intro hsp _
    have hsp := hsp _ hc
    refine ⟨rfl, rfl, ?_⟩
    rw [← hlv]
    have : c ≠ 91 ∧ c ≠ 123 ∧ c ≠ 93 ∧ c ≠ 125 := by
      refine ⟨?_, ?_, ?_, ?_⟩ <;> rintro rfl <;> cases hsp
    simp [this]
  · rcases hp.succ with ⟨-, ⟨d, hd', hm⟩, h⟩ | ⟨h, -⟩
    · rw [hc] at hd'; cases hd'
      exact absurd (by simpa using hm) (h1 (hs.of_direct h).2).1
    · exact hd b h

theorem IkInv.over (h : IkInv json a i t) (ho : Over json a i)
    (hb : json[i]? = some 125 → t.inQuote = false → t.level = 1 → ∃ m b, t.start ≤ m ∧ m < i ∧ json[m]? = some b ∧ space b = false) :
    Named (json.drop a) ∧ Given [58] [125] (fun _ => True) (json.drop a) := by
  refine ⟨h.histN.over ho, h.histG.over ho (by decide) (fun c hc he hq hl hall => ?_)⟩
  have he : c = 125 := by simpa using he
  subst he
  obtain ⟨m, b, h1, h2, h3, h4⟩ := hb hc hq hl
  rw [hall m b h1 h2 h3] at h4; cases h4

/-- Callbacks that go on. -/
def Continues {σ : Type} (cb : σ → Bytes → Bytes → Cb σ) : Prop := ∀ s k v, ∃ u, cb s k v = .ret u true none

theorem ik_loop (hb : json[a]? = some 123) {cb : σ → Bytes → Bytes → Cb σ} (hcb : ∀ s k v, cb s k v ≠ .panic) (h : IkInv json a i t) :
    After (fun _ => Named (json.drop a) ∧ Given [58] [125] (fun _ => True) (json.drop a))
      (fun r => (r = .panic → ¬ (Named (json.drop a) ∧ Given [58] [125] (fun _ => True) (json.drop a))) ∧
        (Continues cb → r ≠ .panic → Named (json.drop a) ∧ Given [58] [125] (fun _ => True) (json.drop a)))
      (forUp json.length (ikBody json cb) i t) := by
  refine forUp_inv (P := fun i s => IkInv json a i s) ?_
    (fun i s hi h => h.over (.inl hi) (fun hc => by have := lt_of_getElem? hc; omega)) h
  intro i s hi h
  obtain ⟨c, hc⟩ := getElem_ex hi
  have done : ∀ {u e}, Named (json.drop a) ∧ Given [58] [125] (fun _ => True) (json.drop a) →
      (IterRes.done (σ := σ) u e = .panic → ¬ (Named (json.drop a) ∧ Given [58] [125] (fun _ => True) (json.drop a))) ∧
        (Continues cb → IterRes.done u e ≠ .panic → Named (json.drop a) ∧ Given [58] [125] (fun _ => True) (json.drop a)) :=
    fun h => ⟨(fun h => by cases h), fun _ _ => h⟩
  unfold ikBody
  simp only [hc]
  split
  · rename_i hj
    obtain ⟨h1, h2, h3, h4, h5, h6, h7⟩ := outside_ne hj
    by_cases hq : s.inQuote = true
    · exact h.str hq hb hc h1
    · exact h.out (by simpa using hq) hb hc h1 (by simp [h2, h3, h4, h5]) (fun _ => ⟨h7 rfl, h4, h5⟩)
  · split
    · rename_i h34
      have h34 : c = 34 := by simpa using h34
      subst h34
      exact h.quote hb hc
    · rename_i h34
      have h34 : c ≠ 34 := by simpa using h34
      split
      · exact h.str (by assumption) hb hc h34
      · rename_i hq
        have hq : s.inQuote = false := by simpa using hq
        split
        · rename_i hop
          simp only [Bool.or_eq_true, beq_iff_eq] at hop
          refine h.out hq hb hc h34 (by rw [if_pos hop]) (fun _ => ?_)
          rcases hop with rfl | rfl <;> decide
        · rename_i hop
          simp only [Bool.or_eq_true, beq_iff_eq, not_or] at hop
          split
          · rename_i hcl
            simp only [Bool.or_eq_true, beq_iff_eq] at hcl
            split
            · rename_i hl
              have hl : s.level = 1 := by simpa using hl
              have ho := h.obj
              rw [hq, hl] at ho
              have hov : Over json a i := .closed (c := c) ho.sees hc hcl
              split
              · rename_i h125
                have h125 : c = 125 := by simpa using h125
                subst h125
                by_cases hall : ∀ m b, s.start ≤ m → m < i → json[m]? = some b → space b = true
                · -- only whitespace: the slice is out of order
                  rw [first_bounds hall, Option.getD_none, last_bounds hall (by omega), Option.getD_none]
                  rcases ho.full with h0 | ⟨m, b, h1, h2, h3, h4⟩ | ⟨b, d, h1, h2, h3, h4, h5⟩
                  · have := ho.gt; omega
                  · rw [hall m b h1 h2 h3] at h4; cases h4
                  · have hlt := ho.hi
                    have hp : Pending json [58] a i b := ⟨h4, by omega, ⟨d, h2, h3⟩, h5, fun m x m1 m2 => hall m x (by omega) m2⟩
                    have hpan : ikValue json s.start s.stop = .panic := by
                      refine ikValue_panic (by have := h.behind b hp; omega) (by omega) (fun hx => ?_)
                      by_cases hsi : s.start = i
                      · rw [hsi, hc] at hx; cases hx
                      · exact absurd (hall s.start 34 (Nat.le_refl _) (by omega) hx) (by decide)
                    rw [hpan]
                    refine ⟨fun _ hN => ?_, fun _ hne => absurd rfl hne⟩
                    rcases ho.given hc (by decide) hN.2 with ⟨m, b, h1, h2, h3, h4⟩ | ⟨-, h2⟩
                    · rw [hall m b h1 h2 h3] at h4; cases h4
                    · exact h2 trivial
                · simp only [Classical.not_forall] at hall
                  obtain ⟨m, b, h1, h2, h3, h4⟩ := hall
                  have h4 : space b = false := by simpa using h4
                  have hgood := h.over hov (fun _ _ _ => ⟨m, b, h1, h2, h3, h4⟩)
                  rcases firstNS_spec (json := json) (lo := s.start) (hi := i) with ⟨j, d, j1, j2, j3, j4, j5, j6⟩ | ⟨-, hn⟩
                  · rw [j1, Option.getD_some]
                    rcases lastNS_spec (json := json) (lo := j) (hi := i) (by omega) with ⟨k, e, k1, k2, k3, k4, k5, k6⟩ | ⟨-, hn⟩
                    · rw [k1, Option.getD_some]
                      obtain ⟨v, hv⟩ := ikValue_ok (json := json) k2 (by omega) (fun hx hy => by
                        rcases Nat.lt_or_ge j k with hlt | hge
                        · exact hlt
                        · exfalso
                          have hjk : j = k := by omega
                          obtain ⟨r, r1, r2, r3, r4⟩ := ho.pair.trim j2 j6 j (Nat.le_refl _) j3 hx
                          exact absurd (k6 r 34 (by omega) r3 r4) (by decide))
                      rw [hv]; simp only
                      cases hcv : cb s.user s.key v with
                      | panic => exact absurd hcv (hcb _ _ _)
                      | ret u b e => exact done hgood
                    · rw [hn j d (Nat.le_refl _) j3 j4] at j5; cases j5
                  · rw [hn m b h1 h2 (by omega) h3] at h4; cases h4
              · rename_i h125
                refine done (h.over hov (fun hx => ?_))
                rw [hc] at hx; injection hx with hx
                exact absurd hx (by simpa using h125)
            · rename_i hl
              have hl : s.level ≠ 1 := by simpa using hl
              exact h.out hq hb hc h34 (by rw [if_neg (by simp [hop]), if_pos hcl]) (fun h => absurd h hl)
          · rename_i hcl
            simp only [Bool.or_eq_true, beq_iff_eq, not_or] at hcl
            split
            · rename_i hl
              have hl : s.level = 1 := by simpa using hl
              have ho := h.obj
              rw [hq, hl] at ho
              have hgt := ho.gt
              split
              · rename_i h44
                have h44 : c = 44 := by simpa using h44
                subst h44
                -- the start is trimmed, the end is the last byte that is not whitespace
                generalize hst : (firstNS json s.start i).getD s.start = st
                have hst' : s.start ≤ st ∧ st ≤ i ∧ (∀ m b, s.start ≤ m → m < st → json[m]? = some b → space b = true) := by
                  rcases firstNS_spec (json := json) (lo := s.start) (hi := i) with ⟨j, d, j1, j2, j3, j4, j5, j6⟩ | ⟨hn, -⟩
                  · rw [j1, Option.getD_some] at hst; subst hst; exact ⟨j2, by omega, j6⟩
                  · rw [hn, Option.getD_none] at hst; subst hst
                    exact ⟨Nat.le_refl _, ho.hi, fun m b h1 h2 => by omega⟩
                obtain ⟨s1, s2, s3⟩ := hst'
                have hpt := ho.pair.trim s1 s3
                generalize hsp : (lastNS json (st + 1) i).getD (i - 1) = sp
                have hsp' : sp < i ∧ ((st ≤ sp ∧ (json[st]? = some 34 → json[sp]? = some 34 → st < sp)) ∨ st = i) := by
                  rcases lastNS_spec (json := json) (lo := st + 1) (hi := i) (by omega) with ⟨j, d, j1, j2, j3, j4, j5, j6⟩ | ⟨hn, hx⟩
                  · rw [j1, Option.getD_some] at hsp; subst hsp; exact ⟨j3, .inl ⟨by omega, fun _ _ => by omega⟩⟩
                  · rw [hn, Option.getD_none] at hsp; subst hsp
                    refine ⟨by omega, ?_⟩
                    by_cases hsi : st = i
                    · exact .inr hsi
                    · refine .inl ⟨by omega, fun hx1 hx2 => ?_⟩
                      obtain ⟨r, r1, r2, r3, r4⟩ := hpt st (Nat.le_refl _) (by omega) hx1
                      exact absurd (hx r 34 (by omega) r3 r4) (by decide)
                obtain ⟨p1, p2⟩ := hsp'
                have hv : ∃ v, ikValue json st sp = .ok v := by
                  rcases p2 with ⟨p2, p3⟩ | p2
                  · exact ikValue_ok p2 (by omega) p3
                  · subst p2
                    have hsp : sp = st - 1 := by
                      rcases lastNS_spec (json := json) (lo := st + 1) (hi := st) (by omega) with ⟨j, d, j1, j2, j3, -⟩ | ⟨hn, -⟩
                      · omega
                      · rw [hn, Option.getD_none] at hsp; exact hsp.symm
                    subst hsp
                    have h1 : idx json (st : Int) = .ok 44 := by unfold idx at?; rw [if_neg (by omega)]; simp [hc]
                    obtain ⟨w, hw⟩ : ∃ w, slice json (st : Int) (st : Int) = .ok w := ⟨_, slice_range (Nat.le_refl _) (by omega)⟩
                    unfold ikValue
                    rw [h1]
                    refine ⟨w, ?_⟩
                    simp only [Out.bind_ok]
                    rw [if_neg (by decide), show (((st - 1 : Nat) : Int) + 1) = ((st : Nat) : Int) by omega]
                    exact hw
                obtain ⟨v, hv⟩ := hv
                rw [hv]; simp only
                have hnext : ∀ u, IkInv json a (i + 1) { s with user := u, start := st, stop := sp } := fun u => by
                  have hx := h.out hq hb hc h34 (lv' := s.level) (by simp) (fun _ => by decide) (ky := s.key) (u := u)
                  refine ⟨?_, hx.histN, ?_, .inl (by simp only; omega), fun b hp => ?_⟩
                  · have := hx.obj
                    refine ⟨this.sees, this.inside, by have := ho.lo; simp only; omega, by simp only; omega, ?_, this.key, this.kin, this.kend,
                      .inr (.inl ⟨i, 44, by simp only; omega, by omega, hc, by decide⟩)⟩
                    simp only; rw [hq]
                    exact hpt.next hc (.inl (by decide))
                  · refine h.histG.next h.obj.sees ?_ ?_ ?_
                    · rintro ⟨d, hd, hm⟩; rw [hc] at hd; cases hd; exact absurd hm (by decide)
                    · rintro ⟨d, hd, hm⟩; rw [hc] at hd; cases hd; exact absurd hm (by decide)
                    · intro hsp; cases hsp _ hc
                  · rcases hp.succ with ⟨-, ⟨d, hd, hm⟩, -⟩ | ⟨-, hsp⟩
                    · rw [hc] at hd; cases hd; exact absurd hm (by decide)
                    · cases hsp _ hc
                have hstop : ∀ {u b e}, cb s.user s.key v = .ret u b e → (b = false ∨ e ≠ none) → ¬ Continues cb := fun hcv hbe hcon => by
                  obtain ⟨u', hu⟩ := hcon s.user s.key v
                  rw [hcv] at hu; injection hu with h1 h2 h3
                  rcases hbe with rfl | hbe
                  · cases h2
                  · exact hbe h3
                cases hcv : cb s.user s.key v with
                | panic => exact absurd hcv (hcb _ _ _)
                | ret u b e =>
                  cases e with
                  | some e => exact ⟨(fun h => by cases h), fun hcon => absurd hcon (hstop hcv (.inr (by simp)))⟩
                  | none =>
                    cases b with
                    | false => exact ⟨(fun h => by cases h), fun hcon => absurd hcon (hstop hcv (.inl rfl))⟩
                    | true => exact hnext u
              · rename_i h44
                have h44 : c ≠ 44 := by simpa using h44
                split
                · rename_i h58
                  have h58 : c = 58 := by simpa using h58
                  subst h58
                  split
                  · rename_i k hk
                    have hn := h.histN
                    rw [hq] at hn
                    have hclo := hn.colon hk
                    have hout := ho.sees.outside hc (by decide)
                    refine ⟨?_, ?_, ?_, ?_, fun b hp => ?_⟩
                    · simp only; rw [hq, hl]
                      exact ho.restart hb hc (by decide) (by decide)
                    · refine h.histN.next h.obj.sees (fun _ _ _ => hclo) ?_
                      rw [hout.2, hclo]; intro hx; cases hx
                    · refine h.histG.next h.obj.sees ?_ ?_ ?_
                      · rintro ⟨d, hd, hm⟩; rw [hc] at hd; cases hd; exact absurd hm (by decide)
                      · intro _ _ _; exact ⟨rfl, hq, hl⟩
                      · intro hsp; cases hsp _ hc
                    · have := h.stop; simp only; omega
                    · rcases hp.succ with ⟨rfl, -⟩ | ⟨-, hsp⟩
                      · have := h.stop; simp only; omega
                      · cases hsp _ hc
                  · rename_i hne
                    refine ⟨fun _ hN => ?_, fun _ h => absurd rfl h⟩
                    obtain ⟨k, hk⟩ := ho.colon hc hN.1
                    exact hne k hk
                · rename_i h58
                  have h58 : c ≠ 58 := by simpa using h58
                  exact h.out hq hb hc h34 (by simp [hop, hcl]) (fun _ => ⟨h58, hcl.1, hcl.2⟩)
            · rename_i hl
              have hl : s.level ≠ 1 := by simpa using hl
              exact h.out hq hb hc h34 (by simp [hop, hcl]) (fun h => absurd h hl)

end Ik

end Jin
