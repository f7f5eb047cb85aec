import Verif.Proof.Span
import Verif.Props.Bulk
import Verif.Proof.Num
/-!
# Proof.Types — `typeControlCore`, `GetType`, `IsEmpty` on scalars, `GetMap`
-/

namespace Jin
open Spec

theorem render_length_ne {d : Doc} {p : List Text} {w : Json} (hd : d.wf) (h : d.get? p = some w) : (d.render.length == 0) = false := by
  obtain ⟨f, A, B, -, -, -, h1, -, hw⟩ := doc_around hd h
  have := List.length_pos_iff.2 (render_ne_nil hw)
  rw [h1]; simp
  intro _ e; simp [e] at this

theorem typeControl_ok {d : Doc} {p : List Text} {w : Json} (hd : d.wf) (h : d.get? p = some w) (control : Bytes) (equal : Bool) :
    ∃ i, Seg d.render i w.render ∧ w.wf ∧
      typeControlCore d.render control equal p = .ok (if control.contains w.first then equal else !equal, i) := by
  obtain ⟨i, hs, hseg, hw, -⟩ := valueStart_ok hd h
  refine ⟨i, hseg, hw, ?_⟩
  rw [typeControlCore, render_length_ne hd h]
  simp only [Bool.false_eq_true, if_false, hs, Out.bind_ok, idx_nat (hseg.first hw)]
  cases control <;> rfl

/-- The literal that `GetType` looks at: the whole text for the empty path. -/
def typeText (d : Doc) (p : List Text) (t : Text) : Text := if p = [] then d.render else t

theorem getType_ok {d : Doc} {p : List Text} {w : Json} (hd : d.wf) (h : d.get? p = some w) (isFloat : Bytes → Bool) :
    GetType isFloat d.render p = .ok (match w with
      | .arr _ _ => .array
      | .obj _ _ => .object
      | .str _ => .string
      | .lit t =>
        let x := typeText d p t
        if x = bTrue ∨ x = bFalse then .boolean
        else if x = bNull then .null
        else if (parseIntBits 64 x).isSome ∨ isFloat x then .number
        else .string) := by
  obtain ⟨i, hseg, hw, ht⟩ := typeControl_ok hd h [] false
  rw [GetType, ht]
  simp only [Out.bind_ok, idx_nat (hseg.first hw)]
  cases w with
  | arr g es => rfl
  | obj g ms => rfl
  | str t => rfl
  | lit t =>
    obtain ⟨-, -, -, -, -, t1, -, t2, -⟩ := tokByte_ne (first_lit hw)
    have t3 := (tokByte_ne (first_lit hw)).2.1
    have hget : GetString d.render p = .ok (typeText d p t) := by
      rw [GetString, typeText]
      by_cases hp : p = []
      · rw [if_pos hp, hp]; rfl
      · rw [if_neg hp]; exact get_ok hd hp h
    simp only [hget, Out.bind_ok, beq_iff_eq, t1, t2, t3, if_false, Bool.or_eq_true]
    split
    · rfl
    · split
      · rfl
      · by_cases h1 : (parseIntBits 64 (typeText d p t)).isSome
        · simp [h1]
        · by_cases h2 : isFloat (typeText d p t) <;> simp [h1, h2] <;> rfl

theorem isEmpty_scalar {d : Doc} {p : List Text} {w : Json} (hd : d.wf) (h : d.get? p = some w) (hc : w.isContainer = false)
    (hb : p = [] ∨ ∀ raw, w = .str raw → ∀ c, raw.head? = some c → c ≠ 91 ∧ c ≠ 123) :
    IsEmpty d.render p = .err .objectExpected := by
  obtain ⟨f, A, B, hf, hv, hA, h1, h2, hw⟩ := doc_around hd h
  have hs : Seg d.render A.length w.render := by
    have := seg_self d.render
    conv at this => arg 3; rw [h1]
    rw [seg_append, seg_append] at this
    simpa using this.2.1
  have hpos := List.length_pos_iff.2 (render_ne_nil hw)
  have hlen := hs.len (render_ne_nil hw)
  have hff : w.first ≠ 91 ∧ w.first ≠ 123 := by
    cases w with
    | lit t => have := tokByte_ne (first_lit hw); exact ⟨this.2.2.2.2.2.1, this.2.2.2.2.2.2.2.1⟩
    | str t => rw [first_str]; decide
    | arr g es => simp [Json.isContainer] at hc
    | obj g es => simp [Json.isContainer] at hc
  -- it is enough to know the two bytes looked at
  have key : ∀ (i j : Nat) (a z : UInt8), emptySpan d.render p = .ok (i, (j : Int)) → d.render[i]? = some a → d.render[j]? = some z →
      a ≠ 91 → a ≠ 123 → IsEmpty d.render p = .err .objectExpected := by
    intro i j a z he ha hz n1 n2
    rw [IsEmpty, render_length_ne hd h]
    simp only [Bool.false_eq_true, if_false, he, Out.bind_ok, idx_nat ha, idx_nat hz, beq_iff_eq, n1, n2, or_self,
      Bool.or_eq_true]
  by_cases hp : p = []
  · subst hp
    obtain ⟨i, -, hsi, -, -, hk, -⟩ := valueStart_ok hd h
    have k1 := hk rfl
    have hroot : d.root = w := by simpa [Doc.get?, Json.get?] using h
    subst hroot
    obtain ⟨c, l1, l2⟩ := (doc_seg d).last_ns hw
    have h3 : Seg d.render 0 (d.lead ++ (d.root.render ++ d.trail)) := seg_self _
    rw [seg_append, seg_append] at h3
    have k2 := skipSpacesDown_ws l1 l2 d.trail (by
      have := h3.2.2
      rw [show d.lead.length + d.root.render.length - 1 + 1 = 0 + d.lead.length + d.root.render.length by omega]
      exact this) (doc_wf.1 hd).2.2
    rw [show d.lead.length + d.root.render.length - 1 + 1 + d.trail.length = d.render.length by
      rw [Doc.render]; simp; omega] at k2
    exact key i _ _ _ (by simp [emptySpan, k1, k2]) (hsi.first hw) l1 hff.1 hff.2
  · have hcore := core_found hd hp hf false
    simp only [Bool.false_eq_true, if_false, hv, ← hA] at hcore
    have he : emptySpan d.render p = .ok ((span A.length w).1, ((span A.length w).2 : Int) - 1) := by
      rw [emptySpan, if_neg (by simpa using hp), hcore]; rfl
    cases w with
    | lit t =>
      have : span A.length (Json.lit t) = (A.length, A.length + (Json.lit t).render.length) := rfl
      rw [this] at he
      obtain ⟨z, hz⟩ : ∃ z, d.render[A.length + (Json.lit t).render.length - 1]? = some z :=
        ⟨_, List.getElem?_eq_getElem (by omega)⟩
      refine key A.length (A.length + (Json.lit t).render.length - 1) _ z ?_ (hs.first hw) hz hff.1 hff.2
      rw [he]; congr 2; omega
    | str raw =>
      have : span A.length (Json.str raw) = (A.length + 1, A.length + 1 + raw.length) := rfl
      rw [this] at he
      have hsp := hs
      rw [render_str, seg_cons, seg_append, seg_cons] at hsp
      have hraw : ∀ c, raw.head? = some c → c ≠ 91 ∧ c ≠ 123 := (hb.resolve_left hp) raw rfl
      have he' : emptySpan d.render p = .ok (A.length + 1, ((A.length + raw.length : Nat) : Int)) := by
        rw [he]; congr 2; omega
      obtain ⟨z, hz⟩ : ∃ z, d.render[A.length + raw.length]? = some z :=
        ⟨_, List.getElem?_eq_getElem (by simp at hlen; omega)⟩
      cases raw with
      | nil => exact key _ _ _ z he' (by simpa using hsp.2.2.1) hz (by decide) (by decide)
      | cons c raw =>
        have h3 := hsp.2.1
        rw [seg_cons] at h3
        exact key _ _ _ z he' h3.1 hz (hraw c rfl).1 (hraw c rfl).2
    | arr g es => simp [Json.isContainer] at hc
    | obj g es => simp [Json.isContainer] at hc

/-! ### GetMap -/

theorem visitLast_fold {σ : Type} (f : σ → Bytes → Bytes → σ) : ∀ (xs : List (Bytes × Bytes)) (u : σ),
    visitLast (fun u k v => .ret (f u k v) true none) xs u = .done (xs.foldl (fun u p => f u p.1 p.2) u) none
  | [], u => rfl
  | x :: xs, u => by
    rw [visitLast]
    simp only [visitLast_fold f xs]
    cases xs <;> rfl

theorem visit_fold {σ α : Type} (f : σ → α → σ) : ∀ (xs : List α) (u : σ),
    visit (fun u v => .ret (f u v) true none) xs u = .done (xs.foldl f u) none
  | [], u => rfl
  | x :: xs, u => by rw [visit]; simp only [visit_fold f xs]; rfl

/-- The value of the last pair with key `k`. -/
def lastOf (xs : List (Bytes × Bytes)) (k : Bytes) : Option Bytes := ((xs.filter fun p => p.1 == k).getLast?).map Prod.snd

theorem goMap_fold (k : Bytes) : ∀ (xs : List (Bytes × Bytes)) (m : GoMap),
    GoMap.get? (xs.foldl (fun m p => m.set p.1 p.2) m) k = (lastOf xs k).or (GoMap.get? m k)
  | [], m => rfl
  | x :: xs, m => by
    rw [List.foldl_cons, goMap_fold k xs, goMap_get_set, lastOf, lastOf]
    by_cases h : x.1 = k
    · simp only [h, beq_self_eq_true, List.filter_cons_of_pos]
      cases hl : xs.filter (fun p => p.1 == k) with
      | nil => simp
      | cons y ys => rw [List.getLast?_cons_cons, List.getLast?_eq_some_getLast (by simp)]; rfl
    · rw [List.filter_cons_of_neg (by simpa using h), if_neg h]

theorem natDigits_inj {a b : Nat} (h : natDigits 10 a = natDigits 10 b) : a = b := by
  rw [← (natDigits_digits a).2, h, (natDigits_digits b).2]

theorem itoa_inj {a b : Nat} (h : itoa a = itoa b) : a = b := by
  unfold itoa at h
  rw [if_neg (by omega), if_neg (by omega)] at h
  exact natDigits_inj h

theorem goMap_index : ∀ (xs : List Bytes) (m : GoMap) (n : Nat),
    (xs.foldl (fun (m : GoMap × Nat) v => (m.1.set (itoa m.2) v, m.2 + 1)) (m, n)).1 =
      (((List.range' n xs.length).map fun i : Nat => itoa i).zip xs).foldl (fun m p => m.set p.1 p.2) m
  | [], m, n => rfl
  | x :: xs, m, n => by
    rw [List.foldl_cons, goMap_index xs, List.length_cons, List.range'_succ, List.map_cons, List.zip_cons_cons, List.foldl_cons]

theorem lastOf_index (xs : List Bytes) (n j : Nat) :
    lastOf (((List.range' n xs.length).map fun i : Nat => itoa i).zip xs) (itoa (n + j : Nat)) = xs[j]? := by
  induction xs generalizing n j with
  | nil => simp [lastOf]
  | cons x xs ih =>
    rw [List.length_cons, List.range'_succ, List.map_cons, List.zip_cons_cons, lastOf]
    cases j with
    | zero =>
      rw [List.filter_cons_of_pos (by simp)]
      have : (((List.range' (n + 1) xs.length).map fun i : Nat => itoa i).zip xs).filter (fun p => p.1 == itoa (n + 0 : Nat)) = [] := by
        rw [List.filter_eq_nil_iff]
        rintro ⟨a, b⟩ hab
        have := (List.of_mem_zip hab).1
        rw [List.mem_map] at this
        obtain ⟨i, hi, e⟩ := this
        rw [List.mem_range'] at hi
        obtain ⟨q, _, rfl⟩ := hi
        simp only [beq_iff_eq, ← e]
        intro e
        have := itoa_inj e
        omega
      rw [this]; rfl
    | succ j =>
      rw [List.filter_cons_of_neg (by
        simp only [beq_iff_eq]
        intro e
        have := itoa_inj e
        omega)]
      have := ih (n + 1) j
      rw [lastOf, show n + 1 + j = n + (j + 1) by omega] at this
      rw [this]; simp

theorem lastOf_other {xs : List (Bytes × Bytes)} {k : Bytes} (h : ∀ p ∈ xs, p.1 ≠ k) : lastOf xs k = none := by
  rw [lastOf, List.filter_eq_nil_iff.2 (by simpa using h)]; rfl

/-- What `GetMap` checks before it iterates. -/
theorem getMap_span {d : Doc} {p : List Text} {w : Json} (hd : d.wf) (h : d.get? p = some w) (hc : w.isContainer)
    (hlen : 2 < d.render.length) : ∃ A B, d.render = A ++ (w.render ++ B) ∧
      (∀ g : Json → Json, (d.upd g p).render = A ++ ((g w).render ++ B)) ∧ w.wf ∧
      (p ≠ [] → B ≠ []) ∧
      GetMap d.render p = if p = [] ∨ B.head? = some (clsOf w) then
          (if w.kind = .obj then (IterateKeyValue d.render (fun (m : GoMap) k v => .ret (m.set k v) true none) p []).toOut some
          else (IterateArray d.render (fun (m : GoMap × Nat) v => .ret (m.1.set (itoa m.2) v, m.2 + 1) true none)
              p ([], 0)).toOut (fun m => some m.1))
        else .err (.badJSON A.length) := by
  obtain ⟨f, A, B, hf, hv, hA, h1, h2, hw⟩ := doc_around hd h
  obtain ⟨A', B', h1', -, h3, -⟩ := getStartEnd_ok hd h hc
  have hr := render_container hc
  have hwl : w.render.length = (inner w).length + 2 := by rw [hr]; simp
  have hse : getStartEnd d.render p = .ok (A.length, A.length + w.render.length - if p = [] then 1 else 0) := by
    by_cases hp : p = []
    · rw [h3]
      subst hp
      have hroot : d.root = w := by simpa [Doc.get?, Json.get?] using h
      subst hroot
      obtain ⟨i, -, hsi, -, -, hk, -⟩ := valueStart_ok hd h
      simp only [findAt, Option.some.injEq] at hf
      have k1 := hk rfl
      have hl : ¬ d.render.length < 2 := by omega
      rw [getStartEnd, if_neg hl] at h3
      simp only [List.length_nil, bne_self_eq_false, Bool.false_eq_true, if_false, k1] at h3
      have e1 : i = d.lead.length := by
        have h0 := seg_self d.render
        conv at h0 => arg 3; rw [Doc.render]
        rw [seg_append] at h0
        have := skipSpaces_value (i := 0) h0.1 (doc_wf.1 hd).1 hw (by simpa using doc_seg d)
        rw [k1] at this
        simpa using this
      have e2 : A.length = d.lead.length := by rw [hA, ← hf]; rfl
      have e3 : A'.length = i := by
        cases hd' : skipSpacesDown d.render d.render.length with
        | none => rw [hd'] at h3; cases h3
        | some z => rw [hd'] at h3; simp only [Out.ok.injEq, Prod.mk.injEq] at h3; exact h3.1.symm
      rw [e3, e2, e1]
    · have hspan : span (d.lead.length + f.pos) f.val = (A.length, A.length + w.render.length) := by
        rw [hv, ← hA]
        cases w <;> simp [Json.isContainer] at hc <;> rfl
      have hcore := core_found hd hp hf false
      simp only [Bool.false_eq_true, if_false, hspan] at hcore
      rw [getStartEnd, if_neg (by omega), if_pos (by simpa using hp), hcore, if_neg hp]; rfl
  have hB : p ≠ [] → B ≠ [] := by
    intro hp hB
    obtain ⟨A2, B2, a1, a2, -, -, -, -, c, hc', -⟩ := doc_split hd hp hf
    have : d.render.length = A.length + w.render.length := by rw [h1, hB]; simp
    have := lt_of_getElem? hc'
    rw [hv] at this
    omega
  refine ⟨A, B, h1, h2, hw, hB, ?_⟩
  have hne : (d.render == bArr || d.render == bObj) = false := by
    rw [Bool.or_eq_false_iff]
    constructor <;> (rw [beq_eq_false_iff_ne]; intro e; rw [e] at hlen; exact absurd hlen (by decide))
  have hs : Seg d.render 0 (A ++ ((opnOf w :: inner w) ++ (clsOf w :: B))) := by
    have := seg_self d.render
    conv at this => arg 3; rw [h1, hr]
    simpa using this
  rw [seg_append, seg_append, seg_cons (c := opnOf w), seg_cons (c := clsOf w)] at hs
  simp only [Nat.zero_add, List.length_cons] at hs
  obtain ⟨-, ⟨s1, -⟩, s2, s3⟩ := hs
  rw [GetMap, hne]
  by_cases hp : p = []
  · rw [if_pos hp] at hse
    rw [if_pos (Or.inl hp)]
    have e : d.render[A.length + w.render.length - 1]? = some (clsOf w) := by rw [← s2]; congr 1; omega
    simp only [Bool.false_eq_true, if_false, hse, Out.bind_ok, idx_nat s1, idx_nat e]
    cases w <;> simp [Json.isContainer] at hc <;> rfl
  · rw [if_neg hp, Nat.sub_zero] at hse
    obtain ⟨b, B', rfl⟩ := List.exists_cons_of_ne_nil (hB hp)
    rw [seg_cons] at s3
    have e : d.render[A.length + w.render.length]? = some b := by rw [← s3.1]; congr 1; omega
    simp only [Bool.false_eq_true, if_false, hse, Out.bind_ok, idx_nat s1, idx_nat e, hp, false_or, List.head?_cons, Option.some.injEq]
    cases w <;> simp [Json.isContainer] at hc <;> simp [opnOf, clsOf, Json.kind]

end Jin
