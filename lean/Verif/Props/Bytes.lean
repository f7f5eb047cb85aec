import Verif.Proof.Lock
import Verif.Props.Errors
import Verif.Props.NoPanic
import Verif.Props.Sample
/-!
# Props.Bytes — C70, C71, C72: the functions on arbitrary bytes

Nothing is assumed about the text unless a theorem says so.
-/

namespace Jin
open Spec

/-- Bytes a value may come after: whitespace, colon, comma, opening square bracket. -/
def beforeValue : List UInt8 := [32, 9, 10, 13, 58, 44, 91]

theorem sepByte_iff {c : UInt8} : sepByte c = true ↔ c ∈ beforeValue := by
  simp [sepByte, space, beforeValue, or_assoc]

theorem cut3 (json : Bytes) {i j : Nat} (h : i ≤ j) : json = json.take i ++ (json.drop i).take (j - i) ++ json.drop j := by
  have : json.drop j = (json.drop i).drop (j - i) := by rw [List.drop_drop]; congr 1; omega
  rw [this, List.append_assoc, List.take_append_drop, List.take_append_drop]

theorem slice_in {json : Bytes} {i j : Nat} (h : i ≤ j) (h2 : j ≤ json.length) : slice json i j = .ok ((json.drop i).take (j - i)) := by
  unfold slice
  rw [if_pos ⟨by omega, by omega, by omega⟩]
  simp

theorem idx_eq {json : Bytes} {i : Nat} : idx json (i : Int) = match json[i]? with | some c => .ok c | none => .panic := by
  unfold idx at?
  rw [if_neg (by omega)]
  simp only [Int.toNat_natCast]
  rfl

theorem idx_before {json : Bytes} {i : Nat} (h : 0 < i) : idx json ((i : Int) - 1) = match json[i - 1]? with | some c => .ok c | none => .panic := by
  have : (i : Int) - 1 = ((i - 1 : Nat) : Int) := by omega
  rw [this, idx_eq]

theorem replace_in {json new : Bytes} {i j : Nat} (hi : i ≤ json.length) (hj : j ≤ json.length) :
    replace json new i j = .ok (json.take i ++ new ++ json.drop j) := by
  unfold replace
  have h1 : slice json 0 (i : Int) = .ok (json.take i) := by
    have := slice_in (json := json) (Nat.zero_le i) hi
    simpa using this
  rw [h1, slice_in hj (Nat.le_refl _)]
  simp only [Out.bind_ok, Out.pure_eq]
  rw [List.take_of_length_le (l := json.drop j) (by simp)]

theorem take_last {json : Bytes} {i : Nat} (h : Opens json i) (hl : i ≤ json.length) : ∃ c ∈ beforeValue, (json.take i).getLast? = some c := by
  obtain ⟨h1, c, h2, h3⟩ := h
  refine ⟨c, sepByte_iff.1 h3, ?_⟩
  rw [List.getLast?_eq_getElem?, List.length_take, Nat.min_eq_left hl, List.getElem?_take, if_pos (by omega), h2]

/-- What was found, as a piece of the text: the token `tok` with content `w`. -/
theorem spot_cut {json : Bytes} {l : Loc} (h : Spot json l) : ∃ a tok b w,
    json = a ++ tok ++ b ∧ slice json l.start l.stop = .ok w ∧ (tok = w ∧ w ≠ [] ∨ tok = 34 :: w ++ [34]) ∧
    (∃ c ∈ beforeValue, a.getLast? = some c) ∧ ∀ v, replaceValue json v l.start l.stop = .done (a ++ v ++ b) none := by
  have hle := h.le
  have hlen := h.len
  have hpos := h.pos
  rcases h.sides with ⟨h1, h2, h3⟩ | ⟨h1, h2⟩
  · have h4 := lt_of_getElem? h2
    refine ⟨json.take (l.start - 1), 34 :: (json.drop l.start).take (l.stop - l.start) ++ [34], json.drop (l.stop + 1), _, ?_,
      slice_in hle hlen, .inr rfl, take_last h3 (by omega), ?_⟩
    · have e1 : json.drop (l.start - 1) = 34 :: json.drop l.start := by
        rw [List.drop_eq_getElem_cons (i := l.start - 1) (by omega), Nat.sub_add_cancel hpos]
        congr 1
        rw [List.getElem?_eq_getElem (by omega)] at h1
        exact Option.some.inj h1
      have e2 : json.drop l.stop = 34 :: json.drop (l.stop + 1) := by
        rw [List.drop_eq_getElem_cons (i := l.stop) h4]
        congr 1
        rw [List.getElem?_eq_getElem h4] at h2
        exact Option.some.inj h2
      have e3 := cut3 (json.drop l.start) (i := 0) (j := l.stop - l.start) (by omega)
      have e4 : (json.drop l.start).drop (l.stop - l.start) = json.drop l.stop := by rw [List.drop_drop]; congr 1; omega
      rw [e4, e2] at e3
      simp only [List.take_zero, List.drop_zero, List.nil_append, Nat.sub_zero] at e3
      conv => lhs; rw [← List.take_append_drop (l.start - 1) json, e1, e3]
      simp
    · intro v
      unfold replaceValue quotedAt
      rw [idx_before hpos, h1, idx_eq, h2]
      simp only [Out.bind_ok, beq_self_eq_true, if_true, Out.pure_eq, Mut.bindOut]
      have : (l.start : Int) - 1 = ((l.start - 1 : Nat) : Int) := by omega
      have h5 : (l.stop : Int) + 1 = ((l.stop + 1 : Nat) : Int) := by omega
      rw [this, h5, replace_in (by omega) (by omega)]
      rfl
  · refine ⟨json.take l.start, _, json.drop l.stop, _, cut3 json hle, slice_in hle hlen, .inl ⟨rfl, ?_⟩, take_last h1 (by omega), ?_⟩
    · intro h0
      have := congrArg List.length h0
      simp only [List.length_take, List.length_drop, List.length_nil] at this
      omega
    · intro v
      obtain ⟨-, c, hc, hs⟩ := h1
      unfold replaceValue quotedAt
      rw [idx_before hpos, hc]
      have h34 : (c == 34) = false := by
        cases h : c == 34 with
        | false => rfl
        | true => rw [beq_iff_eq] at h; subst h; exact absurd hs (by decide)
      simp only [Out.bind_ok, h34, Bool.false_eq_true, if_false, Out.pure_eq, Mut.bindOut]
      rw [replace_in (by omega) (by omega)]
      rfl

/-! ### C70 -/

/-- **C70** On arbitrary bytes `Get` and `Set` agree on what a path addresses.  Either both panic,
or both report the same error and `Set` returns the text it was given, or there is one piece of
the text, right after whitespace, a colon, a comma or an opening square bracket, that `Get`
returns (without its quotes) and `Set` replaces, whatever the new value is. -/
theorem C70_get_set_same_bytes (json : Bytes) (path : List Bytes) (hp : path ≠ []) :
    (Get json path = .panic ∧ ∀ v, Set json v path = .panic) ∨
    (∃ e, Get json path = .err e ∧ ∀ v, Set json v path = .done json (some e)) ∨
    ∃ a tok b w, json = a ++ tok ++ b ∧ Get json path = .ok w ∧ (tok = w ∧ w ≠ [] ∨ tok = 34 :: w ++ [34]) ∧
      (∃ c ∈ beforeValue, a.getLast? = some c) ∧ ∀ v, Set json v path = .done (a ++ v ++ b) none := by
  have hlen : (path.length == 0) = false := by
    cases path with
    | nil => exact absurd rfl hp
    | cons => rfl
  simp only [Get, Set, hlen, Bool.false_eq_true, if_false]
  cases h : core json false path with
  | panic => exact .inl ⟨rfl, fun _ => rfl⟩
  | err e => exact .inr (.inl ⟨e, rfl, fun _ => rfl⟩)
  | ok l =>
    obtain ⟨a, tok, b, w, h1, h2, h3, h4, h5⟩ := spot_cut (core_shape hp h).1
    exact .inr (.inr ⟨a, tok, b, w, h1, h2, h3, h4, h5⟩)

/-- The third case on a text that is no JSON, and the other two. -/
example : Get (str "x{{\"a\":tru,\"b\"") [str "a"] = .err (.keyNotFound (str "a")) ∧
    Get (str "x{\"a\":tru,\"b\"") [str "a"] = .ok (str "tru") ∧
    Set (str "x{\"a\":tru,\"b\"") (str "5") [str "a"] = .done (str "x{\"a\":5,\"b\"") none ∧
    Get (str "{\"a\":") [str "a"] = .panic ∧ Set (str "{\"a\":") (str "5") [str "a"] = .panic := by
  refine ⟨?_, ?_, ?_, ?_, ?_⟩ <;> decide +kernel

/-! ### C71 -/

theorem ofOut_done {o : Out Bytes} {out : Bytes} (h : Mut.ofOut o = .done out none) : o = .ok out := by
  cases o with
  | ok b => simp only [Mut.ofOut] at h; injection h with h1 _; rw [h1]
  | err e => simp only [Mut.ofOut] at h; injection h with _ h2; cases h2
  | panic => cases h

theorem replace_done {json new out : Bytes} {i j : Int} (h : replace json new i j = .ok out) :
    0 ≤ i ∧ i ≤ json.length ∧ 0 ≤ j ∧ j ≤ json.length ∧ out = json.take i.toNat ++ new ++ json.drop j.toNat := by
  unfold replace slice at h
  split at h
  · rename_i h1
    simp only [Out.bind_ok] at h
    split at h
    · rename_i h2
      simp only [Out.bind_ok, Out.pure_eq, Out.ok.injEq] at h
      refine ⟨h1.2.1, h1.2.2, h2.1, h2.2.1, ?_⟩
      rw [← h]
      simp only [Int.toNat_zero, List.drop_zero, Nat.sub_zero, Int.toNat_natCast]
      rw [List.take_of_length_le (l := json.drop _) (by simp)]
    · cases h
  · cases h

/-- An edit that only inserts. -/
theorem insert_cut {json new out : Bytes} {i : Int} (h : Mut.ofOut (replace json new i i) = .done out none) :
    0 ≤ i ∧ i ≤ json.length ∧ json = json.take i.toNat ++ json.drop i.toNat ∧ out = json.take i.toNat ++ new ++ json.drop i.toNat := by
  obtain ⟨h1, h2, -, -, h3⟩ := replace_done (ofOut_done h)
  exact ⟨h1, h2, (List.take_append_drop _ _).symm, h3⟩

theorem bindOut_done {α : Type} {json out : Bytes} {x : Out α} {f : α → Mut} (h : Mut.bindOut json x f = .done out none) :
    ∃ a, x = .ok a ∧ f a = .done out none := by
  cases x with
  | ok a => exact ⟨a, rfl, h⟩
  | err e => simp only [Mut.bindOut] at h; injection h with _ h2; cases h2
  | panic => cases h

theorem brackets_true {json : Bytes} {o c : UInt8} {s e : Nat} (h : bracketsAt json o c s e = .ok true) :
    0 < e ∧ json[e - 1]? = some c := by
  unfold bracketsAt at h
  cases h1 : idx json s with
  | err _ => rw [h1] at h; cases h
  | panic => rw [h1] at h; cases h
  | ok a =>
    rw [h1] at h
    simp only [Out.bind_ok] at h
    split at h
    · cases h2 : idx json ((e : Int) - 1) with
      | err _ => rw [h2] at h; cases h
      | panic => rw [h2] at h; cases h
      | ok b =>
        rw [h2] at h
        simp only [Out.bind_ok, Out.pure_eq, Out.ok.injEq, beq_iff_eq] at h
        subst h
        unfold idx at? at h2
        split at h2
        · rename_i b' hb'
          cases h2
          split at hb'
          · cases hb'
          · have : ((e : Int) - 1).toNat = e - 1 := by omega
            rw [this] at hb'
            exact ⟨by omega, hb'⟩
        · cases h2
    · cases h

theorem head_drop {json : Bytes} {i : Nat} {c : UInt8} (h : json[i]? = some c) : (json.drop i).head? = some c := by
  rw [List.head?_eq_getElem?, List.getElem?_drop]; simpa using h

/-- **C71** `Add` only inserts: whatever the bytes, a call without error gives the text with the
value, and possibly a comma before it, put in right before a closing square bracket. -/
theorem C71_add {json v out : Bytes} {path : List Bytes} (h : Add json v path = .done out none) :
    ∃ a b, json = a ++ b ∧ b.head? = some 93 ∧ (out = a ++ v ++ b ∨ out = a ++ (44 :: v) ++ b) := by
  unfold Add at h
  split at h
  · injection h with _ h; cases h
  obtain ⟨⟨s, e⟩, -, h⟩ := bindOut_done h
  obtain ⟨b, hb, h⟩ := bindOut_done h
  cases b with
  | false => simp only [Bool.false_eq_true, if_false] at h; injection h with _ h; cases h
  | true =>
    obtain ⟨h0, hc⟩ := brackets_true hb
    simp only [if_true] at h
    have hi : ((e : Int) - 1).toNat = e - 1 := by omega
    split at h <;> obtain ⟨-, -, h1, h2⟩ := insert_cut h <;> rw [hi] at h1 h2
    · exact ⟨_, _, h1, head_drop hc, .inl h2⟩
    · exact ⟨_, _, h1, head_drop hc, .inr h2⟩

/-- **C71** `AddKeyValue` only inserts the member, possibly with a comma before it, right before a
closing brace. -/
theorem C71_addKeyValue {json key out : Bytes} {v : Option Bytes} {path : List Bytes} (h : AddKeyValue json key v path = .done out none) :
    ∃ a b, json = a ++ b ∧ b.head? = some 125 ∧
      (out = a ++ (34 :: key ++ [34, 58] ++ v.getD (str "null")) ++ b ∨ out = a ++ (44 :: 34 :: key ++ [34, 58] ++ v.getD (str "null")) ++ b) := by
  have main : ∀ {v : Bytes}, addKeyValue json key v path = .done out none →
      ∃ a b, json = a ++ b ∧ b.head? = some 125 ∧
        (out = a ++ (34 :: key ++ [34, 58] ++ v) ++ b ∨ out = a ++ (44 :: 34 :: key ++ [34, 58] ++ v) ++ b) := by
    intro v h
    unfold addKeyValue at h
    split at h
    · injection h with _ h; cases h
    obtain ⟨⟨s, e⟩, -, h⟩ := bindOut_done h
    obtain ⟨b, hb, h⟩ := bindOut_done h
    cases b with
    | false => simp only [Bool.false_eq_true, if_false] at h; injection h with _ h; cases h
    | true =>
      obtain ⟨h0, hc⟩ := brackets_true hb
      simp only [if_true] at h
      have hi : ((e : Int) - 1).toNat = e - 1 := by omega
      split at h
      · obtain ⟨-, -, h1, h2⟩ := insert_cut h
        rw [hi] at h1 h2
        exact ⟨_, _, h1, head_drop hc, .inl h2⟩
      · split at h
        · cases h
        · injection h with _ h; cases h
        · split at h
          · obtain ⟨-, -, h1, h2⟩ := insert_cut h
            rw [hi] at h1 h2
            exact ⟨_, _, h1, head_drop hc, .inr h2⟩
          · injection h with _ h; cases h
  cases v with
  | some v => exact main h
  | none =>
    have := main (v := bNull) h
    have e : bNull = str "null" := by decide +kernel
    rw [e] at this
    exact this

/-- **C71** `Insert` only inserts the value and one comma. -/
theorem C71_insert {json v out : Bytes} {n : Int} {path : List Bytes} (h : Insert json n v path = .done out none) :
    ∃ a b, json = a ++ b ∧ (out = a ++ (v ++ [44]) ++ b ∨ out = a ++ (44 :: v) ++ b) := by
  unfold Insert at h
  obtain ⟨⟨s, e⟩, -, h⟩ := bindOut_done h
  obtain ⟨b, hb, h⟩ := bindOut_done h
  split at h
  · injection h with _ h; cases h
  obtain ⟨l, -, h⟩ := bindOut_done h
  obtain ⟨⟨s', e'⟩, -, h⟩ := bindOut_done h
  obtain ⟨x, -, h⟩ := bindOut_done h
  obtain ⟨y, -, h⟩ := bindOut_done h
  split at h
  · obtain ⟨-, -, h1, h2⟩ := insert_cut h
    exact ⟨_, _, h1, .inl h2⟩
  split at h
  · obtain ⟨-, -, h1, h2⟩ := insert_cut h
    exact ⟨_, _, h1, .inl h2⟩
  split at h
  · obtain ⟨-, -, h1, h2⟩ := insert_cut h
    exact ⟨_, _, h1, .inr h2⟩
  · injection h with _ h; cases h

/-- **C71** `SetKey` replaces a piece of text that ends at a quote and starts inside the text. -/
theorem C71_setKey {json newKey out : Bytes} {path : List Bytes} (h : SetKey json newKey path = .done out none) :
    ∃ a old b, json = a ++ old ++ 34 :: b ∧ out = a ++ newKey ++ 34 :: b := by
  unfold SetKey at h
  split at h
  · injection h with _ h; cases h
  split at h
  · injection h with _ h; cases h
  split at h
  · cases h
  · injection h with _ h; cases h
  split at h
  · obtain ⟨l, -, h⟩ := bindOut_done h
    split at h
    · cases h
    · have : After (fun _ => True) (fun r : Mut => r = .done out none → ∃ a old b, json = a ++ old ++ 34 :: b ∧ out = a ++ newKey ++ 34 :: b)
          (forUp l.start (setKeyBody json newKey l.keyStart.toNat) l.keyStart.toNat ()) := by
        refine forUp_inv (P := fun i _ => l.keyStart.toNat ≤ i) ?_ (fun _ _ _ _ => trivial) (Nat.le_refl _)
        intro i s hi hle
        unfold setKeyBody
        split
        · intro h; cases h
        · rename_i c hc
          split
          · show _ ≤ max i (i + 1) + 1
            omega
          · split
            · rename_i h34
              simp only [beq_iff_eq] at h34
              subst h34
              intro h
              have hlt := lt_of_getElem? hc
              rw [replace_in (by omega) (by omega)] at h
              simp only [Mut.ofOut] at h
              injection h with h _
              have e2 : json.drop i = 34 :: json.drop (i + 1) := by
                rw [List.drop_eq_getElem_cons (i := i) hlt]
                congr 1
                rw [List.getElem?_eq_getElem hlt] at hc
                exact Option.some.inj hc
              have e3 := cut3 json hle
              rw [e2] at h e3
              exact ⟨_, _, _, e3, h.symm⟩
            · exact Nat.le_succ_of_le hle
      cases hz : forUp l.start (setKeyBody json newKey l.keyStart.toNat) l.keyStart.toNat () with
      | ret r => rw [hz] at this h; exact this h
      | done u => rw [hz] at h; injection h with _ h; cases h
  · injection h with _ h; cases h

theorem infix_cut (json : Bytes) {a b c d : Nat} (h1 : a ≤ b) (h2 : b ≤ c) (h3 : c ≤ d) :
    (json.drop b).take (c - b) <:+: (json.drop a).take (d - a) := by
  refine ⟨(json.drop a).take (b - a), (json.drop c).take (d - c), ?_⟩
  have e1 : json.drop b = (json.drop a).drop (b - a) := by rw [List.drop_drop]; congr 1; omega
  have e2 : json.drop c = (json.drop a).drop (c - a) := by rw [List.drop_drop]; congr 1; omega
  rw [e1, e2, ← List.take_add, show b - a + (c - b) = c - a by omega, ← List.take_add, show c - a + (d - c) = d - a by omega]

/-- What `widen` gives. -/
theorem widen_done {json : Bytes} {s e : Nat} {r : Nat × Nat} (h : widen json s e = .ok r) : r.1 ≤ s ∧ e ≤ r.2 ∧ r.2 ≤ json.length ∧ e < json.length := by
  unfold widen at h
  cases h1 : idx json ((s : Int) - 1) with
  | err _ => rw [h1] at h; cases h
  | panic => rw [h1] at h; cases h
  | ok a =>
    rw [h1, idx_eq] at h
    cases h2 : json[e]? with
    | none => rw [h2] at h; cases h
    | some b =>
      rw [h2] at h
      have := lt_of_getElem? h2
      simp only [Out.bind_ok, Out.pure_eq, Out.ok.injEq] at h
      subst h
      simp only
      refine ⟨?_, ?_, ?_, this⟩ <;> split <;> omega

theorem firstNS_le {json : Bytes} {i hi j : Nat} (h : firstNS json i hi = some j) : i ≤ j ∧ j < hi := by
  fun_induction firstNS json i hi with
  | case1 => cases h
  | case2 i hlt c hc hs ih => have := ih h; omega
  | case3 i hlt c hc hs => cases h; exact ⟨Nat.le_refl _, hlt⟩
  | case4 => cases h

theorem lastNS_lt {json : Bytes} {lo : Nat} : ∀ {n j : Nat}, lastNS json lo n = some j → j < n
  | 0, j, h => by cases h
  | n + 1, j, h => by
    unfold lastNS at h
    split at h
    · cases h
    · split at h
      · cases h
      · split at h
        · have := lastNS_lt h; omega
        · cases h; omega

/-- **C71** `Delete` removes one piece of text that contains what `Get` returns, on any bytes that
do not begin with a comma. -/
theorem C71_delete_partial {json out : Bytes} {path : List Bytes} (h0 : json.head? ≠ some 44) (h : Delete json path = .done out none) :
    ∃ a x b w, json = a ++ x ++ b ∧ out = a ++ b ∧ Get json path = .ok w ∧ w <:+: x := by
  unfold Delete at h
  split at h
  · injection h with _ h; cases h
  rename_i hlen
  have hp : path ≠ [] := by rintro rfl; exact hlen rfl
  obtain ⟨l, hl, h⟩ := bindOut_done h
  obtain ⟨r, hr, h⟩ := bindOut_done h
  obtain ⟨a, ha, h⟩ := bindOut_done h
  obtain ⟨z, hz, h⟩ := bindOut_done h
  obtain ⟨hsp, hks⟩ := core_shape hp hl
  obtain ⟨r1, r2, r3, r4⟩ := widen_done hr
  have hs : (if (l.keyStart == -1) = true then l.start else (l.keyStart - 1).toNat) ≤ l.start := by
    split
    · exact Nat.le_refl _
    · rename_i hk
      rcases hks with hks | ⟨n, key, k1, -, k3, -⟩
      · exact absurd (by simpa using hks) hk
      · omega
  have hle := hsp.le
  have hg : Get json path = .ok ((json.drop l.start).take (l.stop - l.start)) := by
    unfold Get
    rw [if_neg hlen, hl]
    exact slice_in hsp.le hsp.len
  have fin : ∀ {i j : Nat}, i ≤ r.1 → r.2 ≤ j → j ≤ json.length → Mut.ofOut (replace json [] i j) = .done out none →
      ∃ a x b w, json = a ++ x ++ b ∧ out = a ++ b ∧ Get json path = .ok w ∧ w <:+: x := by
    intro i j hi hj hjl h
    obtain ⟨-, -, -, -, h5⟩ := replace_done (ofOut_done h)
    simp only [Int.toNat_natCast, List.append_nil] at h5
    exact ⟨_, _, _, _, cut3 json (by omega), h5, hg, infix_cut json (by omega) hle (by omega)⟩
  split at h
  · exact fin (Nat.le_refl _) (Nat.le_refl _) r3 h
  split at h
  · rename_i h44
    simp only [beq_iff_eq] at h44
    subst h44
    cases hf : firstNS json r.2 json.length with
    | none =>
      rw [hf, Option.getD_none, idx_eq] at hz
      rw [List.head?_eq_getElem?] at h0
      cases hx : json[0]? with
      | none => rw [hx] at hz; cases hz
      | some y => rw [hx] at hz h0; simp only [Out.ok.injEq] at hz; rw [hz] at h0; exact absurd rfl h0
    | some j =>
      rw [hf, Option.getD_some] at h
      have := firstNS_le hf
      have e : (j : Int) + 1 = ((j + 1 : Nat) : Int) := by omega
      rw [e] at h
      exact fin (Nat.le_refl _) (by omega) (by omega) h
  split at h
  · refine fin ?_ (Nat.le_refl _) r3 h
    cases hf : lastNS json 1 r.1 with
    | none => simp
    | some j => have := lastNS_lt hf; simp only [Option.getD_some]; omega
  · injection h with _ h; cases h

/-- The comma is not idle: on a text that begins with one, `Delete` makes the text longer. -/
theorem C71_delete_fails : ∃ json out path, Delete json path = .done out none ∧ json.length < out.length :=
  ⟨str ",{\"a\":1 ", str ",{{\"a\":1 ", [str "a"], by decide +kernel, by decide +kernel⟩

/-- All five on texts that are no JSON. -/
example : Add (str "[1,,{]") (str "5") [] = .done (str "[1,,{,5]") none ∧
    AddKeyValue (str "{\"a\":{x} ") (str "k") none [str "a"] = .done (str "{\"a\":{x,\"k\":null} ") none ∧
    Insert (str "[1,[7 8,x],,") 1 (str "5") [str "1"] = .done (str "[1,[7 8,5,x],,") none ∧
    SetKey (str "{\"a\":1 x") (str "k") [str "a"] = .done (str "{\"k\":1 x") none ∧
    Delete (str "{\"a\":1,\"b\":2") [str "a"] = .done (str "{\"b\":2") none := by
  refine ⟨?_, ?_, ?_, ?_, ?_⟩ <;> decide +kernel

/-! ### C72 -/

theorem bindOut_panic {α : Type} {json : Bytes} {x : Out α} {f : α → Mut} (h : Mut.bindOut json x f = .panic) :
    x = .panic ∨ ∃ a, x = .ok a ∧ f a = .panic := by
  cases x with
  | ok a => exact .inr ⟨a, rfl, h⟩
  | err e => cases h
  | panic => exact .inl rfl

theorem ofOut_panic {o : Out Bytes} (h : Mut.ofOut o = .panic) : o = .panic := by
  cases o with
  | ok b => cases h
  | err e => cases h
  | panic => rfl

theorem replace_ne {json new : Bytes} {i j : Nat} (hi : i ≤ json.length) (hj : j ≤ json.length) :
    Mut.ofOut (replace json new i j) ≠ .panic := by
  rw [replace_in hi hj]; intro h; cases h

/-- **C72** `Set` does not panic on a text whose last byte is not whitespace, a colon, a comma or
an opening square bracket. -/
theorem C72_set (json v : Bytes) (path : List Bytes) (hj : ∀ c, json.getLast? = some c → c ∉ [32, 9, 10, 13, 58, 44, 91]) :
    Set json v path ≠ .panic := by
  by_cases hp : path = []
  · subst hp; intro h; cases h
  · rcases C70_get_set_same_bytes json path hp with ⟨h, -⟩ | ⟨e, -, h⟩ | ⟨a, -, b, -, -, -, -, -, h⟩
    · rcases C06_get_settled json path hj hp with ⟨e, he⟩ | ⟨_, w, _, he, -⟩ <;> rw [he] at h <;> cases h
    · rw [h v]; intro h; cases h
    · rw [h v]; intro h; cases h

theorem firstNS_some {json : Bytes} {i hi j : Nat} (h : firstNS json i hi = some j) : ∃ c, json[j]? = some c ∧ space c = false := by
  fun_induction firstNS json i hi with
  | case1 => cases h
  | case2 i hlt c hc hs ih => exact ih h
  | case3 i hlt c hc hs => cases h; exact ⟨c, hc, by simpa using hs⟩
  | case4 => cases h

theorem lastNS_some {json : Bytes} {lo : Nat} : ∀ {n j : Nat}, lastNS json lo n = some j → ∃ c, json[j]? = some c
  | 0, j, h => by cases h
  | n + 1, j, h => by
    unfold lastNS at h
    split at h
    · cases h
    · split at h
      · cases h
      · rename_i c hc
        split at h
        · exact lastNS_some h
        · cases h; exact ⟨c, hc⟩

theorem lastNS_none {json : Bytes} : ∀ {n : Nat}, n ≤ json.length → lastNS json 0 n = none → ∀ j c, j < n → json[j]? = some c → space c = true
  | 0, _, _, j, c, hj, _ => by omega
  | n + 1, hn, h, j, c, hj, hc => by
    unfold lastNS at h
    rw [if_neg (by omega)] at h
    obtain ⟨d, hd⟩ := getElem_some (json := json) (i := n) (by omega)
    rw [hd] at h
    simp only at h
    split at h
    · rename_i hs
      rcases Nat.lt_or_ge j n with hlt | hge
      · exact lastNS_none (by omega) h j c hlt hc
      · have : j = n := by omega
        subst this
        rw [hd] at hc; cases hc; exact hs
    · cases h

/-- A container span lies in the text. -/
def SpanIn (json : Bytes) (r : Nat × Nat) : Prop :=
  r.1 < json.length ∧ r.2 ≤ json.length ∧ (r.2 = 0 → ∃ c, json[r.1]? = some c ∧ space c = true)

theorem rootSpan_in {json : Bytes} (hj : json ≠ []) {o c : UInt8} {e : Err} :
    rootSpan json o c e ≠ .panic ∧ ∀ r, rootSpan json o c e = .ok r → SpanIn json r := by
  have hpos : 0 < json.length := List.length_pos_iff.2 hj
  have key : ∀ a b : Nat, a < json.length → b ≤ json.length → (b = 0 → lastNS json 0 json.length = none) → SpanIn json (a, b) := by
    intro a b h1 h2 h3
    refine ⟨h1, h2, fun h0 => ?_⟩
    obtain ⟨d, hd⟩ := getElem_some h1
    exact ⟨d, hd, lastNS_none (Nat.le_refl _) (h3 h0) a d h1 hd⟩
  unfold rootSpan
  cases hf : firstNS json 0 json.length with
  | none =>
    cases hl : lastNS json 0 json.length with
    | none =>
      refine ⟨(fun h => by cases h), fun r h => ?_⟩
      cases h
      exact key _ _ hpos (Nat.zero_le _) (fun _ => hl)
    | some z =>
      obtain ⟨b, hb⟩ := lastNS_some hl
      have := lt_of_getElem? hb
      simp only [hb, Out.bind_ok]
      split
      · split
        · exact ⟨(fun h => by cases h), fun r h => by cases h⟩
        · refine ⟨(fun h => by cases h), fun r h => ?_⟩
          cases h
          exact key _ _ hpos this (fun h => by omega)
      · exact ⟨(fun h => by cases h), fun r h => by cases h⟩
  | some i =>
    obtain ⟨a, ha, -⟩ := firstNS_some hf
    have hi := lt_of_getElem? ha
    simp only [ha]
    split
    · split
      · exact ⟨(fun h => by cases h), fun r h => by cases h⟩
      · simp only [Out.bind_ok]
        cases hl : lastNS json 0 json.length with
        | none =>
          refine ⟨(fun h => by cases h), fun r h => ?_⟩
          cases h
          exact key _ _ hi (Nat.zero_le _) (fun _ => hl)
        | some z =>
          obtain ⟨b, hb⟩ := lastNS_some hl
          have := lt_of_getElem? hb
          simp only [hb]
          split
          · split
            · exact ⟨(fun h => by cases h), fun r h => by cases h⟩
            · refine ⟨(fun h => by cases h), fun r h => ?_⟩
              cases h
              exact key _ _ hi this (fun h => by omega)
          · exact ⟨(fun h => by cases h), fun r h => by cases h⟩
    · exact ⟨(fun h => by cases h), fun r h => by cases h⟩

theorem spot_lt {json : Bytes} {l : Loc} (h : Spot json l) : l.start < json.length ∧ 0 < l.stop := by
  have := h.le
  have := h.pos
  have := h.len
  rcases h.sides with ⟨-, h2, -⟩ | ⟨-, h2⟩
  · have := lt_of_getElem? h2; omega
  · omega

theorem containerSpan_in {json : Bytes} {path : List Bytes} (hj : json ≠ []) (hs : path = [] ∨ Settled json) {o c : UInt8} {e : Err} :
    containerSpan json o c e path ≠ .panic ∧ ∀ r, containerSpan json o c e path = .ok r → SpanIn json r := by
  unfold containerSpan
  split
  · exact rootSpan_in hj
  · rename_i hl
    have hp : path ≠ [] := by rintro rfl; exact hl rfl
    have hs' : Settled json := hs.resolve_left hp
    obtain ⟨h1, -⟩ := core_inv hs' hp
    cases h : core json false path with
    | panic => exact absurd h h1
    | err e => exact ⟨(fun h => by cases h), fun r h => by cases h⟩
    | ok l =>
      refine ⟨(fun h => by cases h), fun r hr => ?_⟩
      simp only [Out.bind_ok, Out.pure_eq, Out.ok.injEq] at hr
      subst hr
      have hsp := (core_shape hp h).1
      have := spot_lt hsp
      exact ⟨this.1, hsp.len, fun h0 => absurd h0 (by simp only; omega)⟩

theorem brackets_ne {json : Bytes} {o c : UInt8} (ho : space o = false) {r : Nat × Nat} (h : SpanIn json r) :
    ∃ b, bracketsAt json o c r.1 r.2 = .ok b := by
  obtain ⟨h1, h2, h3⟩ := h
  obtain ⟨a, ha⟩ := getElem_some h1
  unfold bracketsAt
  rw [idx_eq, ha]
  simp only [Out.bind_ok]
  split
  · rename_i hao
    simp only [beq_iff_eq] at hao
    subst hao
    have hpos : 0 < r.2 := by
      rcases Nat.eq_zero_or_pos r.2 with h0 | h0
      · obtain ⟨d, hd, hsd⟩ := h3 h0
        rw [ha] at hd; cases hd
        rw [ho] at hsd; cases hsd
      · exact h0
    obtain ⟨z, hz⟩ := getElem_some (json := json) (i := r.2 - 1) (by omega)
    rw [idx_before hpos, hz]
    exact ⟨_, rfl⟩
  · exact ⟨_, rfl⟩

/-- **C72** `Add` does not panic at the root of any text, and nowhere in such a text. -/
theorem C72_add (json v : Bytes) (path : List Bytes)
    (hj : path = [] ∨ ∀ c, json.getLast? = some c → c ∉ [32, 9, 10, 13, 58, 44, 91]) : Add json v path ≠ .panic := by
  intro h
  unfold Add at h
  split at h
  · cases h
  rename_i hlen
  have hne : json ≠ [] := by rintro rfl; simp at hlen
  obtain ⟨h1, h2⟩ := containerSpan_in hne (hj.imp id settled_iff.2) (o := 91) (c := 93) (e := .arrayExpected)
  rcases bindOut_panic h with h | ⟨r, hr, h⟩
  · exact h1 h
  have hin := h2 r hr
  obtain ⟨b, hb⟩ := brackets_ne (json := json) (o := 91) (c := 93) (by decide) hin
  rcases bindOut_panic h with h | ⟨b', hb', h⟩
  · rw [hb] at h; cases h
  cases b' with
  | false => simp only [Bool.false_eq_true, if_false] at h; cases h
  | true =>
    have := (brackets_true hb').1
    have e : (r.2 : Int) - 1 = ((r.2 - 1 : Nat) : Int) := by omega
    have := hin.2.1
    simp only [if_true] at h
    split at h <;> exact replace_ne (by omega) (by omega) (e ▸ h)

/-- **C72** `AddKeyValue` does not panic on such a text. -/
theorem C72_addKeyValue (json key : Bytes) (v : Option Bytes) (path : List Bytes)
    (hj : ∀ c, json.getLast? = some c → c ∉ [32, 9, 10, 13, 58, 44, 91]) : AddKeyValue json key v path ≠ .panic := by
  have main : ∀ v, addKeyValue json key v path ≠ .panic := by
    intro v h
    unfold addKeyValue at h
    split at h
    · cases h
    rename_i hlen
    have hne : json ≠ [] := by rintro rfl; simp at hlen
    obtain ⟨h1, h2⟩ := containerSpan_in (path := path) hne (.inr (settled_iff.2 hj)) (o := 123) (c := 125) (e := .objectExpected)
    rcases bindOut_panic h with h | ⟨r, hr, h⟩
    · exact h1 h
    have hin := h2 r hr
    obtain ⟨b, hb⟩ := brackets_ne (json := json) (o := 123) (c := 125) (by decide) hin
    rcases bindOut_panic h with h | ⟨b', hb', h⟩
    · rw [hb] at h; cases h
    cases b' with
    | false => simp only [Bool.false_eq_true, if_false] at h; cases h
    | true =>
      have := (brackets_true hb').1
      have e : (r.2 : Int) - 1 = ((r.2 - 1 : Nat) : Int) := by omega
      have := hin.2.1
      simp only [if_true] at h
      split at h
      · exact replace_ne (by omega) (by omega) (e ▸ h)
      · split at h
        · rename_i hc
          exact (core_inv (path := path ++ [key]) (settled_iff.2 hj) (by simp)).1 hc
        · cases h
        · split at h
          · exact replace_ne (by omega) (by omega) (e ▸ h)
          · cases h
  cases v with
  | none => exact main _
  | some v => exact main _

/-- `widen` panics only before the first byte or behind the last one. -/
theorem widen_panic {json : Bytes} {s e : Nat} (hs : s ≤ json.length) (he : e ≤ json.length) (h : widen json s e = .panic) : s = 0 ∨ e = json.length := by
  rcases Nat.eq_zero_or_pos s with h0 | h0
  · exact .inl h0
  · right
    obtain ⟨a, ha⟩ := getElem_some (json := json) (i := s - 1) (by omega)
    unfold widen at h
    rw [idx_before h0, ha, idx_eq] at h
    cases hc : json[e]? with
    | none =>
      rcases Nat.lt_or_ge e json.length with hlt | hge
      · rw [List.getElem?_eq_getElem hlt] at hc; cases hc
      · omega
    | some c => rw [hc] at h; cases h

theorem edge_lt {json : Bytes} (hj : json ≠ []) (r : Nat × Nat) : r.1 ≤ json.length →
    (lastNS json 1 r.1).getD 0 < json.length ∧ (firstNS json r.2 json.length).getD 0 < json.length := by
  intro h1
  have hpos : 0 < json.length := List.length_pos_iff.2 hj
  constructor
  · cases h : lastNS json 1 r.1 with
    | none => exact hpos
    | some j => have := lastNS_lt h; simp only [Option.getD_some]; omega
  · cases h : firstNS json r.2 json.length with
    | none => exact hpos
    | some j => exact (firstNS_le h).2

/-- The rest of `Insert` and `Delete` behind `widen` does not panic. -/
theorem edges_ne {json : Bytes} (hj : json ≠ []) {r : Nat × Nat} (h1 : r.1 ≤ json.length) :
    (∃ a, idx json (((lastNS json 1 r.1).getD 0 : Nat) : Int) = .ok a) ∧
    ∃ z, idx json (((firstNS json r.2 json.length).getD 0 : Nat) : Int) = .ok z := by
  obtain ⟨e1, e2⟩ := edge_lt hj r h1
  obtain ⟨a, ha⟩ := getElem_some e1
  obtain ⟨z, hz⟩ := getElem_some e2
  exact ⟨⟨a, by rw [idx_eq, ha]⟩, ⟨z, by rw [idx_eq, hz]⟩⟩

theorem widen_zero {json : Bytes} {s e : Nat} {r : Nat × Nat} (hs : 0 < s) (h : widen json s e = .ok r) (h0 : r.1 = 0) : json[0]? = some 34 := by
  unfold widen at h
  rw [idx_before hs] at h
  cases ha : json[s - 1]? with
  | none => rw [ha] at h; cases h
  | some a =>
    rw [ha, idx_eq] at h
    cases hb : json[e]? with
    | none => rw [hb] at h; cases h
    | some b =>
      rw [hb] at h
      simp only [Out.bind_ok, Out.pure_eq, Out.ok.injEq] at h
      subst h
      simp only at h0
      split at h0
      · rename_i h34
        simp only [beq_iff_eq] at h34
        rw [h0] at ha
        rw [ha, h34]
      · omega

theorem get_end {json : Bytes} {path : List Bytes} (hp : path ≠ []) {l : Loc} (hl : core json false path = .ok l) (h : l.stop = json.length) :
    ∃ a w, Get json path = .ok w ∧ json = a ++ w := by
  have hsp := (core_shape hp hl).1
  refine ⟨json.take l.start, (json.drop l.start).take (l.stop - l.start), ?_, ?_⟩
  · unfold Get
    rw [if_neg (by simpa using hp), hl]
    exact slice_in hsp.le hsp.len
  · have := cut3 json hsp.le
    rw [h, List.drop_length, List.append_nil] at this
    rw [h]
    exact this

/-- **C72** `Delete` panics on such a text only if the value ends the text, or the key (the last path
entry) begins the text, perhaps behind one byte. -/
theorem C72_delete_partial (json : Bytes) (path : List Bytes) (hj : ∀ c, json.getLast? = some c → c ∉ [32, 9, 10, 13, 58, 44, 91])
    (h : Delete json path = .panic) :
    (∃ a w, Get json path = .ok w ∧ json = a ++ w) ∨
    ∃ key, path.getLast? = some key ∧ (key <+: json ∨ ∃ q, q :: key <+: json) := by
  unfold Delete at h
  split at h
  · cases h
  rename_i hlen
  have hp : path ≠ [] := by rintro rfl; exact hlen rfl
  rcases bindOut_panic h with h | ⟨l, hl, h⟩
  · exact absurd h (core_inv (settled_iff.2 hj) hp).1
  obtain ⟨hsp, hks⟩ := core_shape hp hl
  have hlt := spot_lt hsp
  have hle := hsp.le
  have hlen' := hsp.len
  have hpos := hsp.pos
  have hs : (if (l.keyStart == -1) = true then l.start else (l.keyStart - 1).toNat) ≤ l.start := by
    split
    · exact Nat.le_refl _
    · rename_i hk
      rcases hks with hks | ⟨n, key, k1, -, k3, -⟩
      · exact absurd (by simpa using hks) hk
      · omega
  rcases bindOut_panic h with h | ⟨r, hr, h⟩
  · rcases widen_panic (by omega) hlen' h with h0 | h0
    · split at h0
      · omega
      · rename_i hk
        rcases hks with hks | ⟨n, key, k1, k2, k3, k4, k5⟩
        · exact absurd (by simpa using hks) hk
        · right
          refine ⟨key, k2, ?_⟩
          have hn : n = 0 ∨ n = 1 := by omega
          rcases hn with rfl | rfl
          · left
            rw [List.drop_zero] at k4
            rw [← k4]
            exact List.take_prefix _ _
          · right
            cases json with
            | nil => simp at k5
            | cons q t =>
              refine ⟨q, ?_⟩
              rw [List.drop_succ_cons, List.drop_zero] at k4
              rw [← k4]
              exact List.cons_prefix_cons.2 ⟨rfl, List.take_prefix _ _⟩
    · exact .inl (get_end hp hl h0)
  obtain ⟨r1, r2, r3, r4⟩ := widen_done hr
  have hne : json ≠ [] := by rintro rfl; simp at r4
  obtain ⟨⟨a', ha'⟩, ⟨z', hz'⟩⟩ := edges_ne hne (r := r) (by omega)
  obtain ⟨e1, e2⟩ := edge_lt hne r (by omega)
  rcases bindOut_panic h with h | ⟨a, ha, h⟩
  · rw [ha'] at h; cases h
  rcases bindOut_panic h with h | ⟨z, hz, h⟩
  · rw [hz'] at h; cases h
  split at h
  · exact absurd h (replace_ne (by omega) (by omega))
  split at h
  · have e : (((edges json r.1 r.2).2 : Nat) : Int) + 1 = (((firstNS json r.2 json.length).getD 0 + 1 : Nat) : Int) := by simp [edges]
    exact absurd (e ▸ h) (replace_ne (by omega) (by omega))
  split at h
  · exact absurd h (replace_ne (Nat.le_of_lt e1) (by omega))
  · cases h

/-- **C72** `Insert` panics on such a text only if the text is empty, or the item ends the text. -/
theorem C72_insert_partial (json : Bytes) (n : Int) (v : Bytes) (path : List Bytes) (h0 : json ≠ [])
    (hj : ∀ c, json.getLast? = some c → c ∉ [32, 9, 10, 13, 58, 44, 91]) (h : Insert json n v path = .panic) :
    ∃ a w, Get json (path ++ [itoa n]) = .ok w ∧ json = a ++ w := by
  unfold Insert at h
  obtain ⟨h1, h2⟩ := containerSpan_in (path := path) h0 (.inr (settled_iff.2 hj)) (o := 91) (c := 93) (e := .arrayExpected)
  rcases bindOut_panic h with h | ⟨r, hr, h⟩
  · exact absurd h h1
  obtain ⟨b, hb⟩ := brackets_ne (json := json) (o := 91) (c := 93) (by decide) (h2 r hr)
  rcases bindOut_panic h with h | ⟨b', hb', h⟩
  · rw [hb] at h; cases h
  split at h
  · cases h
  have hp : path ++ [itoa n] ≠ [] := by simp
  rcases bindOut_panic h with h | ⟨l, hl, h⟩
  · exact absurd h (core_inv (settled_iff.2 hj) hp).1
  have hsp := (core_shape hp hl).1
  have hlt := spot_lt hsp
  have hle := hsp.le
  have hlen' := hsp.len
  have hpos := hsp.pos
  rcases bindOut_panic h with h | ⟨r, hr, h⟩
  · rcases widen_panic (by omega) hlen' h with h0 | h0
    · omega
    · exact get_end hp hl h0
  obtain ⟨r1, r2, r3, r4⟩ := widen_done hr
  obtain ⟨⟨a', ha'⟩, ⟨z', hz'⟩⟩ := edges_ne h0 (r := r) (by omega)
  rcases bindOut_panic h with h | ⟨a, ha, h⟩
  · rw [ha'] at h; cases h
  rcases bindOut_panic h with h | ⟨z, hz, h⟩
  · rw [hz'] at h; cases h
  split at h
  · exact absurd h (replace_ne (by omega) (by omega))
  split at h
  · exact absurd h (replace_ne (by omega) (by omega))
  split at h
  · rename_i h44
    rcases Nat.eq_zero_or_pos r.1 with hz0 | hz0
    · have := widen_zero hpos hr hz0
      rw [hz0] at ha
      simp only [lastNS, Option.getD_none] at ha
      rw [idx_eq, this] at ha
      cases ha
      exact absurd h44 (by decide)
    · have e : (r.1 : Int) - 1 = ((r.1 - 1 : Nat) : Int) := by omega
      exact absurd (e ▸ h) (replace_ne (by omega) (by omega))
  · cases h

theorem errEqual_code {e : Err} (h : errEqual (some e) codeKeyNotFound = true) {c : Int} (hc : e.code = some c) : c = 8 :=
  ((C58_errEqual e c codeKeyNotFound hc).1.1 h).symm

/-- **C72** `SetKey` does not panic on such a text: the check that the new key is not there yet fails
before `SetKey` could look for the quotes of an array item. -/
theorem C72_setKey (json newKey : Bytes) (path : List Bytes) (hj : ∀ c, json.getLast? = some c → c ∉ [32, 9, 10, 13, 58, 44, 91]) :
    SetKey json newKey path ≠ .panic := by
  intro h
  have hs := settled_iff.2 hj
  unfold SetKey at h
  split at h
  · cases h
  split at h
  · cases h
  rename_i hlen
  have hp : path ≠ [] := by rintro rfl; exact hlen rfl
  cases hc : core json false (path.dropLast ++ [newKey]) with
  | panic => exact (core_inv hs (by simp)).1 hc
  | ok l => rw [hc] at h; cases h
  | err e =>
    rw [hc] at h
    simp only at h
    split at h
    · rename_i he
      rcases bindOut_panic h with h | ⟨l, hl, h⟩
      · exact (core_inv hs hp).1 h
      obtain ⟨hsp, hks⟩ := core_shape hp hl
      have hlt := spot_lt hsp
      rcases hks with hks | ⟨n, key, k1, k2, k3, k4, k5⟩
      · have tw : Twin path (path.dropLast ++ [newKey]) := by
          have := twin_of path.dropLast (path.getLast hp) newKey
          rwa [List.dropLast_concat_getLast] at this
        obtain ⟨c, h1, h2⟩ := core_lock tw hl hks e hc
        exact h2 (errEqual_code he h1)
      · rw [if_neg (by omega)] at h
        have : After (fun _ => True) (· ≠ Mut.panic) (forUp l.start (setKeyBody json newKey l.keyStart.toNat) l.keyStart.toNat ()) := by
          refine forUp_inv (P := fun _ _ => True) ?_ (fun _ _ _ _ => trivial) trivial
          intro i u hi _
          obtain ⟨c, hc⟩ := getElem_some (json := json) (i := i) (by omega)
          unfold setKeyBody
          simp only [hc]
          split
          · trivial
          split
          · exact replace_ne (by omega) (by omega)
          · trivial
        split at h
        · rename_i r hr
          rw [hr] at this
          exact this h
        · cases h
    · cases h

/-- The exceptions of C72 happen: each of these calls panics, on a text that ends in a closing brace or bracket,
is empty or (the last one) ends in a space. -/
theorem C72_fails : Delete (str "{\"a\":{}") [str "a"] = .panic ∧ Delete (str "{:1}") [str ""] = .panic ∧
    Insert (str "[[]") 0 (str "1") [] = .panic ∧ Insert [] 0 (str "1") [] = .panic ∧ Add (str "[ ") (str "2") [str "0"] = .panic := by
  refine ⟨?_, ?_, ?_, ?_, ?_⟩ <;> decide +kernel

/-- Calls on broken texts that end in `}`, a letter or a quote. -/
example : Set (str "}{{]:\"}") (str "1") [str "a"] = .done (str "}{{]:\"}") (some (.keyNotFound (str "a"))) ∧
    SetKey (str "[1,2}") (str "k") [str "1"] = .done (str "[1,2}") (some .indexExpected) ∧
    SetKey (str "{\"a\":1,\"b") (str "k") [str "a"] = .done (str "{\"k\":1,\"b") none ∧
    Delete (str "{\"a\":1,x") [str "a"] = .done (str "{x") none ∧
    Add (str "[]]") (str "1") [] = .done (str "[],1]") none := by
  refine ⟨?_, ?_, ?_, ?_, ?_⟩ <;> decide +kernel

end Jin
