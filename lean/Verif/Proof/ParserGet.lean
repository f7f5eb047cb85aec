import Verif.Proof.ParserTree
import Verif.Proof.Types
import Verif.Proof.GetSet
/-!
# Proof.ParserGet — walking the parsed tree
-/

namespace Jin
open Spec

/-! ### Plain indices -/

theorem digitChar_of {c : UInt8} (h : (48 ≤ c && c ≤ 57) = true) : c.toNat - 48 < 10 ∧ digitChar (c.toNat - 48) = c := by
  simp only [Bool.and_eq_true, decide_eq_true_eq, UInt8.le_iff_toNat_le] at h
  have h1 : 48 ≤ c.toNat := h.1
  have h2 : c.toNat ≤ 57 := h.2
  have key : ∀ d : Fin 10, (digitChar d.1).toNat = d.1 + 48 := by decide
  refine ⟨by omega, ?_⟩
  have := key ⟨c.toNat - 48, by omega⟩
  apply UInt8.toNat.inj
  simp only at this
  omega

theorem decimalValue_concat (u : Text) (c : UInt8) : decimalValue (u ++ [c]) = decimalValue u * 10 + (c.toNat - 48) := by
  simp [decimalValue]

theorem natDigits_plain {t : Text} (h : plainIndex t) : natDigits 10 (decimalValue t) = t := by
  suffices H : ∀ n (t : Text), t.length = n → isDigits t → (t = [48] ∨ t.head? ≠ some 48) →
      natDigits 10 (decimalValue t) = t ∧ (t.head? ≠ some 48 → 0 < decimalValue t) by
    simp only [plainIndex, Bool.and_eq_true, Bool.or_eq_true, beq_iff_eq, bne_iff_ne] at h
    exact (H _ t rfl h.1 h.2).1
  intro n
  induction n using Nat.strongRecOn with
  | _ n ih =>
    intro t hn hd hz
    rcases List.eq_nil_or_concat t with rfl | ⟨u, c, rfl⟩
    · simp [isDigits] at hd
    · rw [List.concat_eq_append] at *
      have hc : (48 ≤ c && c ≤ 57) = true := by
        simp only [isDigits, Bool.and_eq_true, List.all_eq_true] at hd
        simpa using hd.2 c (by simp)
      obtain ⟨c1, c2⟩ := digitChar_of hc
      rw [decimalValue_concat]
      by_cases hu : u = []
      · subst hu
        simp only [List.nil_append, decimalValue, List.foldl_nil, Nat.zero_mul, Nat.zero_add]
        refine ⟨by rw [natDigits, dif_pos (by omega), c2], fun hh => ?_⟩
        have : c ≠ 48 := by simpa using hh
        simp only [Bool.and_eq_true, decide_eq_true_eq, UInt8.le_iff_toNat_le] at hc
        have h1 : 48 ≤ c.toNat := hc.1
        have h2 : c.toNat ≠ 48 := fun e => this (UInt8.toNat.inj (by rw [e]; rfl))
        omega
      · have hhead : (u ++ [c]).head? = u.head? := by cases u <;> simp_all
        have hz' : u.head? ≠ some 48 := by
          rcases hz with e | e
          · exact absurd (congrArg List.length e) (by simp [hu])
          · rwa [hhead] at e
        have hdu : isDigits u := by
          simp only [isDigits, Bool.and_eq_true, List.all_eq_true] at hd ⊢
          exact ⟨by simp [hu], fun x hx => hd.2 x (by simp [hx])⟩
        obtain ⟨i1, i2⟩ := ih u.length (by simp at hn; omega) u rfl hdu (.inr hz')
        have hpos := i2 hz'
        refine ⟨?_, fun _ => by omega⟩
        rw [natDigits, dif_neg (by omega),
          show (decimalValue u * 10 + (c.toNat - 48)) / 10 = decimalValue u by omega,
          show (decimalValue u * 10 + (c.toNat - 48)) % 10 = c.toNat - 48 by omega, i1, c2]

theorem itoa_nat (n : Nat) : itoa n = natDigits 10 n := by
  unfold itoa
  rw [if_neg (by omega)]
  rfl

theorem natDigits_head (n : Nat) : natDigits 10 n = [48] ∨ (natDigits 10 n).head? ≠ some 48 := by
  have key : ∀ d : Fin 10, [digitChar d.1] = [48] ∨ [digitChar d.1].head? ≠ some 48 := by decide
  fun_induction natDigits 10 n with
  | case1 n h => exact key ⟨n, by omega⟩
  | case2 n h ih =>
    right
    have hne : natDigits 10 (n / 10) ≠ [] := by
      have := (natDigits_digits (n / 10)).1
      intro e; rw [e] at this; simp [isDigits] at this
    have hh : (natDigits 10 (n / 10) ++ [digitChar (n % 10)]).head? = (natDigits 10 (n / 10)).head? := by
      cases hx : natDigits 10 (n / 10) <;> simp_all
    rw [hh]
    rcases ih with e | e
    · have := (natDigits_digits (n / 10)).2
      rw [e] at this
      have : n / 10 = 0 := by rw [← this]; rfl
      omega
    · exact e

theorem itoa_plain (n : Nat) : plainIndex (itoa n) ∧ decimalValue (itoa n) = n := by
  rw [itoa_nat]
  obtain ⟨h1, h2⟩ := natDigits_digits n
  refine ⟨?_, h2⟩
  simp only [plainIndex, Bool.and_eq_true, Bool.or_eq_true, beq_iff_eq, bne_iff_ne]
  exact ⟨h1, natDigits_head n⟩

theorem plain_itoa {p : Text} (h : plainIndex p) : itoa (decimalValue p) = p := by
  rw [itoa_nat, natDigits_plain h]

/-- A plain index that denotes a position denotes the number it spells. -/
theorem readIndex_plain {p : Text} {n : Nat} (h : plainIndex p) (hr : readIndex p = some n) : n = decimalValue p := by
  have hd : isDigits p := by simp only [plainIndex, Bool.and_eq_true] at h; exact h.1
  obtain ⟨c, r, e, e1, e2⟩ := isDigits_head hd
  have : readInt p = (if isDigits p then some (decimalValue p : Int) else none).filter fun n => -9223372036854775808 ≤ n ∧ n ≤ 9223372036854775807 := by
    rw [e]
    simp only [readInt]
    split <;> simp_all
  rw [if_pos hd] at this
  unfold readIndex at hr
  rw [this] at hr
  by_cases hb : (decimalValue p : Int) ≤ 9223372036854775807
  · rw [Option.filter_some_pos (by simp; omega)] at hr
    simpa using hr.symm
  · rw [Option.filter_some_neg (by simp; omega)] at hr
    cases hr

/-! ### Walking -/

theorem nodeOf_label (label l r : Bytes) (v : Json) : (nodeOf label l r v).label = label := by
  cases v <;> simp [nodeOf, Node.label]

theorem nodeOf_down (label l r : Bytes) (v : Json) : (nodeOf label l r v).down =
    match v with
    | .arr _ es => if lone es then [] else nodesE 0 es
    | .obj _ ms => nodesM ms
    | _ => [] := by
  cases v <;> simp [nodeOf, Node.down]

theorem nodesE_find (p : Text) : ∀ (es : List (Elem Json)) (k : Nat),
    (nodesE k es).find? (fun d => d.label == p) =
      if plainIndex p ∧ k ≤ decimalValue p then
        es[decimalValue p - k]?.map fun e => nodeOf p e.l e.r e.v
      else none
  | [], k => by simp [nodesE]
  | e :: es, k => by
    rw [nodesE_cons, List.find?_cons, nodeOf_label, nodesE_find p es (k + 1)]
    by_cases he : itoa k = p
    · subst he
      obtain ⟨h1, h2⟩ := itoa_plain k
      simp [h1, h2]
    · have : (itoa k == p) = false := by simpa using he
      simp only [this]
      by_cases hp : plainIndex p
      · have hne : decimalValue p ≠ k := by
          rintro rfl; exact he (plain_itoa hp)
        by_cases hk : k ≤ decimalValue p
        · rw [if_pos ⟨hp, by omega⟩, if_pos ⟨hp, hk⟩,
            show decimalValue p - k = (decimalValue p - (k + 1)) + 1 by omega, List.getElem?_cons_succ]
        · rw [if_neg (by omega), if_neg (by omega)]
      · simp [hp]

theorem nodesM_find (p : Text) : ∀ (ms : List (Member Json)),
    (nodesM ms).find? (fun d => d.label == p) =
      (memberIdx ms p).bind fun n => ms[n]?.map fun m => nodeOf p m.l2 m.r m.v
  | [] => by simp [nodesM, memberIdx]
  | m :: ms => by
    rw [nodesM_cons, List.find?_cons, nodeOf_label, nodesM_find p ms]
    unfold memberIdx
    rw [List.findIdx?_cons]
    by_cases he : m.key = p
    · subst he; simp
    · have : (m.key == p) = false := by simpa using he
      simp only [this]
      cases h : ms.findIdx? (fun m => m.key == p) <;> simp

/-- The child a step leads to. -/
theorem nodeOf_step {label l r : Bytes} {v : Json} (hv : v.wf) (p : Text) :
    match v.treeChild? p with
    | some w => w.wf ∧ ∃ l' r', Ws l' ∧ Ws r' ∧
        (nodeOf label l r v).down.find? (fun d => d.label == p) = some (nodeOf p l' r' w)
    | none => (nodeOf label l r v).down.find? (fun d => d.label == p) = none := by
  cases v with
  | lit t => simp [nodeOf_down, Json.treeChild?]
  | str t => simp [nodeOf_down, Json.treeChild?]
  | arr g es =>
    rw [nodeOf_down]
    simp only [Json.treeChild?]
    by_cases hl : lone es
    · simp [hl]
    · simp only [hl, Bool.false_or, Bool.false_eq_true, if_false]
      rw [nodesE_find]
      by_cases hp : plainIndex p
      · simp only [hp, Bool.not_true, Bool.false_eq_true, if_false, Nat.zero_le, and_self, if_true, Nat.sub_zero]
        cases he : es[decimalValue p]? with
        | none => simp
        | some e =>
          rw [wf_arr, wfElems_iff] at hv
          have := hv.2 e (List.mem_of_getElem? he)
          simp only [Option.map_some]
          exact ⟨this.2.1, e.l, e.r, this.1, this.2.2, rfl⟩
      · simp [hp]
  | obj g ms =>
    rw [nodeOf_down]
    simp only [Json.treeChild?]
    rw [nodesM_find]
    cases hm : memberIdx ms p with
    | none => simp
    | some n =>
      simp only [Option.bind_some]
      cases he : ms[n]? with
      | none => simp
      | some m =>
        rw [wf_obj, wfMembers_iff] at hv
        have := hv.2 m (List.mem_of_getElem? he)
        simp only [Option.map_some]
        exact ⟨this.2.2.2.2.1, m.l2, m.r, this.2.2.2.1, this.2.2.2.2.2, rfl⟩

theorem walk_found : ∀ (path : List Text) {label l r : Bytes} {v w : Json}, v.wf → Ws l → Ws r → v.treeGet? path = some w →
    ∃ lb l' r', Ws l' ∧ Ws r' ∧ w.wf ∧ (nodeOf label l r v).walk path = .ok (nodeOf lb l' r' w)
  | [], label, l, r, v, w, hv, hl, hr, h => by
    simp only [Json.treeGet?, Option.some.injEq] at h
    subst h
    exact ⟨label, l, r, hl, hr, hv, by rw [Node.walk]⟩
  | p :: ps, label, l, r, v, w, hv, hl, hr, h => by
    have hs := nodeOf_step (label := label) (l := l) (r := r) hv p
    rw [Json.treeGet?] at h
    cases hc : v.treeChild? p with
    | none => rw [hc] at h; simp at h
    | some c =>
      rw [hc] at h hs
      obtain ⟨hcw, l', r', hl', hr', hf⟩ := hs
      rw [Node.walk, hf]
      exact walk_found ps hcw hl' hr' h

theorem walk_missing : ∀ (path : List Text) {label l r : Bytes} {v : Json}, v.wf → v.treeGet? path = none →
    ∃ x ∈ path, (nodeOf label l r v).walk path = .err (.keyNotFound x)
  | [], _, _, _, _, _, h => by simp [Json.treeGet?] at h
  | p :: ps, label, l, r, v, hv, h => by
    have hs := nodeOf_step (label := label) (l := l) (r := r) hv p
    rw [Json.treeGet?] at h
    cases hc : v.treeChild? p with
    | none =>
      rw [hc] at hs
      simp only at hs
      exact ⟨p, by simp, by rw [Node.walk, hs]⟩
    | some c =>
      rw [hc] at h hs
      obtain ⟨hcw, l', r', -, -, hf⟩ := hs
      obtain ⟨x, hx, he⟩ := walk_missing ps hcw h
      exact ⟨x, by simp [hx], by rw [Node.walk, hf]; exact he⟩

/-- The cleaned value of a node is the content of the value. -/
theorem nodeOf_clean {label l r : Bytes} {v : Json} (hv : v.wf) (hl : Ws l) (hr : Ws r) :
    cleanValue (nodeOf label l r v).value = .ok v.content := by
  cases hc : v.isContainer with
  | false =>
    rw [nodeOf_scalar hc]
    exact cleanValue_ok hl hv hr
  | true =>
    have : (nodeOf label l r v).value = [] ++ (v.render ++ []) := by
      cases v <;> simp_all [nodeOf, Node.value, Json.isContainer]
    rw [this]
    exact cleanValue_ok rfl hv rfl

/-! ### The two ways to resolve a path -/

theorem treeChild_child {v : Json} {p : Text} {w : Json} (h : v.child? p = some w)
    (hp : v.kind = .arr → plainIndex p) (hl : ∀ g es, v = .arr g es → lone es = false) : v.treeChild? p = some w := by
  cases v with
  | lit t => simp [Json.child?] at h
  | str t => simp [Json.child?] at h
  | obj g ms => exact h
  | arr g es =>
    simp only [Json.child?, Json.treeChild?] at *
    have hp := hp rfl
    cases hr : readIndex p with
    | none => rw [hr] at h; simp at h
    | some n =>
      rw [hr] at h
      have := readIndex_plain hp hr
      subst this
      simp only [hl g es rfl, hp, Bool.not_true, Bool.or_self, Bool.false_eq_true, if_false]
      exact h

theorem treeGet_get : ∀ (path : List Text) {v w : Json}, v.get? path = some w → v.plainPath path →
    (∀ pre x g es, path = pre ++ [x] → v.get? pre = some (.arr g es) → lone es = false) → v.treeGet? path = some w
  | [], v, w, h, _, _ => h
  | p :: ps, v, w, h, hpl, hl => by
    obtain ⟨c, hc, hg⟩ := get_cons h
    simp only [Json.plainPath, hc, Option.all_some, Bool.and_eq_true] at hpl
    rw [Json.treeGet?, treeChild_child hc (fun hk => by simpa [hk] using hpl.1)]
    · refine treeGet_get ps hg hpl.2 fun pre x g es e hpre => hl (p :: pre) x g es (by simp [e]) ?_
      rw [Json.get?, hc]; exact hpre
    · rintro g es rfl
      cases hlo : lone es with
      | false => rfl
      | true =>
        -- the element is a scalar, so the path ends here
        have : ps = [] := by
          match es, hlo with
          | [e], hlo =>
            simp only [Json.child?] at hc
            obtain ⟨n, _, hn⟩ := Option.bind_eq_some_iff.1 hc
            have : c = e.v := by cases n <;> simp_all
            subst this
            cases ps with
            | nil => rfl
            | cons q qs =>
              rw [Json.get?] at hg
              cases hv : e.v <;> simp_all [lone, Json.isContainer, Json.child?]
        subst this
        rw [← hl [] p g es rfl rfl, hlo]

end Jin
