import Verif.Proof.NoPanic
/-!
# Proof.Lost — paths that lead nowhere

A path of which a beginning cannot be followed is refused where its beginning is, whatever comes after it.
-/

namespace Jin

/-- The errors for a path that leads nowhere: a key that is missing, an index that is too large, and a key
where an index is needed. -/
def Err.lost : Err → Bool
  | .keyNotFound _ | .indexOutOfRange | .indexExpected => true
  | _ => false

namespace Lost

/-- Two loops that take the same steps until the first one stops in a way that does not matter. -/
theorem forUp_ext {σ ρ : Type} {hi : Nat} {b1 b2 : Nat → σ → Ctl σ ρ} {P Q : σ → Prop} {R : ρ → Prop}
    (hb : ∀ i s, P s → match b1 i s with
      | .next s' => b2 i s = .next s' ∧ P s'
      | .goto j s' => b2 i s = .goto j s' ∧ P s'
      | .brk s' => b2 i s = .brk s' ∨ Q s'
      | .ret r => b2 i s = .ret r ∨ R r) (i : Nat) (s : σ) (hs : P s) :
    (∃ t, forUp hi b1 i s = .done t ∧ Q t) ∨ (∃ r, forUp hi b1 i s = .ret r ∧ R r) ∨ forUp hi b2 i s = forUp hi b1 i s := by
  induction i, s using forUp.induct (hi := hi) (body := b1) with
  | case1 i s hlt s' he ih =>
    have := hb i s hs; rw [he] at this
    rw [forUp, if_pos hlt, he, forUp, if_pos hlt, this.1]
    exact ih this.2
  | case2 i s hlt j s' he ih =>
    have := hb i s hs; rw [he] at this
    rw [forUp, if_pos hlt, he, forUp, if_pos hlt, this.1]
    exact ih this.2
  | case3 i s hlt s' he =>
    have := hb i s hs; rw [he] at this
    rw [forUp, if_pos hlt, he, forUp, if_pos hlt]
    rcases this with h | h
    · right; right; rw [h]
    · exact .inl ⟨_, rfl, h⟩
  | case4 i s hlt r he =>
    have := hb i s hs; rw [he] at this
    rw [forUp, if_pos hlt, he, forUp, if_pos hlt]
    rcases this with h | h
    · right; right; rw [h]
    · exact .inr (.inl ⟨_, rfl, h⟩)
  | case5 i s hlt =>
    right; right
    rw [forUp, if_neg hlt, forUp, if_neg hlt]

/-- Every way out of a loop with `return` is one of the ways of its body. -/
theorem forUp_ret_of {σ ρ : Type} {hi : Nat} {b : Nat → σ → Ctl σ ρ} {R : ρ → Prop}
    (hb : ∀ i s r, b i s = .ret r → R r) (i : Nat) (s : σ) {r : ρ} (h : forUp hi b i s = .ret r) : R r := by
  induction i, s using forUp.induct (hi := hi) (body := b) with
  | case1 i s hlt s' he ih => rw [forUp, if_pos hlt, he] at h; exact ih h
  | case2 i s hlt j s' he ih => rw [forUp, if_pos hlt, he] at h; exact ih h
  | case3 i s hlt s' he => rw [forUp, if_pos hlt, he] at h; cases h
  | case4 i s hlt r' he => rw [forUp, if_pos hlt, he] at h; cases h; exact hb _ _ _ he
  | case5 i s hlt => rw [forUp, if_neg hlt] at h; cases h

variable {json : Bytes} {path q : List Bytes}

theorem next? {k : Nat} (h : k + 1 < path.length) : (path ++ q)[k + 1]? = path[k + 1]? :=
  List.getElem?_append_left h

theorem zero_ext {k : Nat} (hk : k < path.length) (i : Nat) (s : ZeroSt) {hi : Nat} :
    (∃ t, forUp hi (zeroBody json path k) i s = .done t ∧ k + 1 = path.length) ∨
    (∃ r, forUp hi (zeroBody json path k) i s = .ret r ∧ r = .panic) ∨
    forUp hi (zeroBody json (path ++ q) k) i s = forUp hi (zeroBody json path k) i s := by
  refine forUp_ext (P := fun _ => True) (Q := fun _ => k + 1 = path.length) ?_ i s trivial
  intro i s _
  by_cases h : k + 1 = path.length
  · have h1 : (k + 1 != path.length) = false := by simp [h]
    unfold zeroBody
    cases json[i]? with
    | none => exact .inr rfl
    | some c =>
      dsimp only
      rw [h1]
      cases !space c
      · exact ⟨rfl, trivial⟩
      · cases c == 123 || c == 91 <;> exact .inr h
  · have h1 : (k + 1 != path.length) = true := by simp [h]
    have h2 : (k + 1 != (path ++ q).length) = true := by simp; omega
    have e : zeroBody json (path ++ q) k i s = zeroBody json path k i s := by
      unfold zeroBody
      rw [h1, h2, next? (by omega)]
    rw [e]
    cases zeroBody json path k i s <;> simp

theorem peek_same {k : Nat} (h : k + 1 < path.length) : peekBody json (path ++ q) k = peekBody json path k := by
  funext j u
  have h1 : (k + 1 != path.length) = true := by simp; omega
  have h2 : (k + 1 != (path ++ q).length) = true := by simp; omega
  unfold peekBody
  rw [h1, h2]

theorem peek_last {k : Nat} (h : k + 1 = path.length) {hi : Nat} (j : Nat) (u : Unit) {r : Out Loc}
    (hr : forUp hi (peekBody json path k) j u = .ret r) : r = .panic := by
  refine forUp_ret_of (R := fun r => r = .panic) ?_ j u hr
  intro i s r hb
  have h1 : (k + 1 != path.length) = false := by simp [h]
  unfold peekBody at hb
  rw [h1] at hb
  cases hj : json[i]? with
  | none => rw [hj] at hb; cases hb; rfl
  | some c =>
    rw [hj] at hb; dsimp only at hb
    cases hs : !space c <;> rw [hs] at hb
    · cases hb
    · cases hn : (c != 91 && c != 123) <;> rw [hn] at hb <;> cases hb

theorem arr_ext {k : Nat} (hk : k < path.length) (n : Int) (i : Nat) (s : ArrSt) {hi : Nat} :
    (∃ t, forUp hi (arrBody json path k n) i s = .done t ∧ t.found = true ∧ k + 1 = path.length) ∨
    (∃ r, forUp hi (arrBody json path k n) i s = .ret r ∧ r = .panic) ∨
    forUp hi (arrBody json (path ++ q) k n) i s = forUp hi (arrBody json path k n) i s := by
  refine forUp_ext (P := fun _ => True) (Q := fun t => t.found = true ∧ k + 1 = path.length) ?_ i s trivial
  intro i s _
  by_cases h : k + 1 = path.length
  · have h1 : (k + 1 == path.length) = true := by simp [h]
    have h2 : path[k + 1]? = none := by rw [h]; simp
    unfold arrBody
    cases json[i]? with
    | none => exact .inr rfl
    | some c =>
      dsimp only
      rw [h1, h2]
      cases !isJSONChar true false c
      case true => exact ⟨rfl, trivial⟩
      cases c == 34
      case true => cases quoteScan json i i <;> exact ⟨rfl, trivial⟩
      cases s.inQuote
      case true => exact ⟨rfl, trivial⟩
      cases (!s.found && s.level == 1 && c == 44)
      case true =>
        cases s.indexCount + 1 == n
        case false => exact ⟨rfl, trivial⟩
        dsimp only [if_true]
        cases hp : forUp json.length (peekBody json path k) (i + 1) () with
        | ret r => exact .inr (peek_last h _ _ hp)
        | done u => exact .inr ⟨rfl, h⟩
      cases c == 91 || c == 123
      case true =>
        cases s.found
        · exact ⟨rfl, trivial⟩
        · exact .inr rfl
      cases c == 93 || c == 125
      case true =>
        by_cases hl : s.level < 2
        · simp only [hl, if_true, Bool.false_eq_true, if_false]; exact .inl trivial
        · simp only [hl, if_true, Bool.false_eq_true, if_false]; exact ⟨trivial, trivial⟩
      exact ⟨rfl, trivial⟩
  · have h1 : (k + 1 == path.length) = false := by simp [h]
    have h2 : (k + 1 == (path ++ q).length) = false := by simp; omega
    have e : arrBody json (path ++ q) k n i s = arrBody json path k n i s := by
      unfold arrBody
      rw [h1, h2, next? (by omega), peek_same (by omega)]
    rw [e]
    cases arrBody json path k n i s <;> simp

theorem key_ext (i : Nat) (s : KeySt) (hk : s.k < path.length) {hi : Nat} :
    (∃ t, forUp hi (keyBody json path) i s = .done t ∧ t.found = true ∧ t.k + 1 = path.length) ∨
    (∃ r, forUp hi (keyBody json path) i s = .ret r ∧ r = .panic) ∨
    forUp hi (keyBody json (path ++ q)) i s = forUp hi (keyBody json path) i s := by
  refine forUp_ext (P := fun s => s.k < path.length) (Q := fun t => t.found = true ∧ t.k + 1 = path.length) ?_ i s hk
  intro i s hk
  have hk : s.k < path.length := hk
  have h2 : (s.k + 1 == (path ++ q).length) = (s.k + 1 == path.length && (q.length == 0)) := by
    rw [List.length_append, Bool.eq_iff_iff]; simp only [beq_iff_eq, Bool.and_eq_true]; omega
  unfold keyBody
  cases json[i]? with
  | none => exact .inr rfl
  | some c =>
    dsimp only
    rw [h2]
    cases !isJSONChar false true c
    case true => exact ⟨rfl, hk⟩
    cases c == 34
    case true =>
      cases s.found
      case true => exact ⟨rfl, hk⟩
      cases s.level != s.k + 1
      case true => exact ⟨rfl, hk⟩
      cases quoteScan json i i
      · cases s.inQuote <;> exact ⟨rfl, hk⟩
      · exact ⟨rfl, hk⟩
      · cases s.inQuote <;> exact ⟨rfl, hk⟩
    cases s.inQuote
    case true => exact ⟨rfl, hk⟩
    cases (s.level == s.k + 1 && c == 58)
    case true =>
      cases sameKey json s.cur s.start s.stop
      case true =>
        cases h : s.k + 1 == path.length
        · exact ⟨rfl, hk⟩
        · exact .inr ⟨rfl, eq_of_beq h⟩
      simp only [Bool.false_eq_true, if_false, if_true]
      cases forUp json.length (jumpBody json s.k s.cur) i ⟨s.level, false, none⟩ with
      | ret r => exact .inl rfl
      | done js => exact ⟨rfl, hk⟩
    cases c == 91
    case true =>
      cases s.found
      · exact ⟨rfl, hk⟩
      · by_cases hn : s.k + 1 < path.length
        · rw [next? hn]
          obtain ⟨p, hp⟩ : ∃ p, path[s.k + 1]? = some p := ⟨_, List.getElem?_eq_getElem hn⟩
          rw [hp]; exact .inl rfl
        · rw [List.getElem?_eq_none (by omega : path.length ≤ s.k + 1)]; exact .inr rfl
    cases c == 123
    case true =>
      cases s.found
      · exact ⟨rfl, hk⟩
      · by_cases hn : s.k + 1 < path.length
        · rw [next? hn]
          obtain ⟨p, hp⟩ : ∃ p, path[s.k + 1]? = some p := ⟨_, List.getElem?_eq_getElem hn⟩
          rw [hp]; exact ⟨rfl, hn⟩
        · rw [List.getElem?_eq_none (by omega : path.length ≤ s.k + 1)]; exact .inr rfl
    cases c == 93 || c == 125
    case true =>
      by_cases hl : s.level < s.k + 1
      · simp only [hl, if_true, Bool.false_eq_true, if_false]; exact .inl trivial
      · simp only [hl, if_true, Bool.false_eq_true, if_false]; exact ⟨trivial, hk⟩
    exact ⟨rfl, hk⟩

theorem step_ext (s : CoreSt) (hk : s.k < path.length) :
    (∃ t, coreStep json path s = .done t ∧ t.k + 1 = path.length) ∨ coreStep json path s = .ret .panic ∨
    coreStep json (path ++ q) s = coreStep json path s := by
  unfold coreStep
  cases s.brace == 91
  case true =>
    simp only [if_true]
    cases atoi s.cur with
    | none => exact .inr (.inr rfl)
    | some n =>
      dsimp only
      cases n == 0
      case true =>
        simp only [if_true]
        rcases zero_ext (json := json) (q := q) hk (s.offset + 1) ⟨s.offset + 1, s.brace, s.cur⟩ (hi := json.length) with ⟨t, h, h'⟩ | ⟨r, h, rfl⟩ | h
        · rw [h]; exact .inl ⟨_, rfl, h'⟩
        · rw [h]; exact .inr (.inl rfl)
        · rw [h]; exact .inr (.inr rfl)
      case false =>
        simp only [Bool.false_eq_true, if_false]
        rcases arr_ext (json := json) (q := q) hk n s.offset ⟨0, false, false, 0, s.offset, s.brace, s.cur⟩ (hi := json.length) with ⟨t, h, hf, h'⟩ | ⟨r, h, rfl⟩ | h
        · rw [h]; dsimp only; rw [hf]; exact .inl ⟨_, rfl, h'⟩
        · rw [h]; exact .inr (.inl rfl)
        · rw [h]; exact .inr (.inr rfl)
  case false =>
    simp only [Bool.false_eq_true, if_false]
    rcases key_ext (json := json) (q := q) s.offset ⟨s.k, s.k, false, false, 0, 0, s.offset, s.brace, s.cur, s.keyStart⟩ hk (hi := json.length)
      with ⟨t, h, hf, h'⟩ | ⟨r, h, rfl⟩ | h
    · rw [h]; dsimp only; rw [hf]; exact .inl ⟨_, rfl, h'⟩
    · rw [h]; exact .inr (.inl rfl)
    · rw [h]; exact .inr (.inr rfl)

theorem loop_ext {e : Err} : ∀ (n m : Nat) (s : CoreSt), n ≤ m → coreLoop json path n s = .ret (.err e) →
    coreLoop json (path ++ q) m s = .ret (.err e) := by
  intro n
  induction n with
  | zero => intro m s _ h; cases h
  | succ n ih =>
    intro m s hm h
    obtain ⟨m, rfl⟩ : ∃ k, m = k + 1 := ⟨m - 1, by omega⟩
    unfold coreLoop at h ⊢
    by_cases hk : s.k < path.length
    · rw [if_pos hk] at h
      rw [if_pos (by simp; omega)]
      rcases step_ext (json := json) (q := q) s hk with ⟨t, ht, htk⟩ | hp | he
      · rw [ht] at h
        have : coreLoop json path n { t with k := t.k + 1 } = .done { t with k := t.k + 1 } := by
          cases n with
          | zero => rfl
          | succ n => unfold coreLoop; rw [if_neg (by simp; omega)]
        dsimp only at h
        rw [this] at h; cases h
      · rw [hp] at h; cases h
      · rw [he]
        cases hc : coreStep json path s with
        | ret r => rw [hc] at h; exact h
        | done t => rw [hc] at h; exact ih m _ (by omega) h
    · rw [if_neg hk] at h; cases h

theorem extent_lost {ks : Int} {o : Nat} {c : UInt8} {e : Err} (h : extent json ks o c = .err e) : e.lost = false := by
  unfold extent at h
  have out : ∀ r : LoopRes Unit (Out Loc), (∀ x, r = .ret x → ∀ e, x = .err e → e.lost = false) →
      (match r with | .ret r => r | .done _ => (.err (.badJSON o) : Out Loc)) = .err e → e.lost = false := by
    intro r hr h
    cases r with
    | ret x => exact hr x rfl e h
    | done u => cases h; rfl
  refine out _ ?_ h
  intro x hx
  split at hx
  · split at hx
    · rename_i r' hr'
      cases hx
      refine forUp_ret_of (R := fun r : Out Loc => ∀ e, r = .err e → e.lost = false) ?_ _ _ hr'
      intro i s r hb e he
      subst he
      unfold braceBody at hb
      repeat' split at hb
      all_goals cases hb
    · cases hx
  · split at hx
    · refine forUp_ret_of (R := fun r : Out Loc => ∀ e, r = .err e → e.lost = false) ?_ _ _ hx
      intro i s r hb e he
      subst he
      unfold stringBody at hb
      repeat' split at hb
      all_goals cases hb
    · refine forUp_ret_of (R := fun r : Out Loc => ∀ e, r = .err e → e.lost = false) ?_ _ _ hx
      intro i s r hb e he
      subst he
      unfold plainBody at hb
      repeat' split at hb
      all_goals cases hb
      rfl

/-- What `core` does before it looks for the end of the value does not depend on `justStart`, and a longer
path does not get further. -/
theorem core_lost {js : Bool} {e : Err} (hl : e.lost = true) (h : core json js path = .err e) (q : List Bytes) (js' : Bool) :
    core json js' (path ++ q) = .err e := by
  unfold core at h ⊢
  by_cases hs : json.length < 2
  · rw [if_pos hs] at h; cases h; cases hl
  · rw [if_neg hs] at h ⊢
    cases path with
    | nil => cases h
    | cons p ps =>
      simp only [List.cons_append] at h ⊢
      cases hk : skipSpaces json 0 with
      | none => rw [hk] at h; cases h
      | some o =>
        rw [hk] at h
        dsimp only at h ⊢
        cases hb : json[o]? with
        | none => rw [hb] at h; cases h
        | some b =>
          rw [hb] at h
          dsimp only at h ⊢
          cases hc : coreLoop json (p :: ps) (p :: ps).length ⟨0, o, b, p, -1⟩ with
          | ret r =>
            rw [hc] at h
            dsimp only at h
            subst h
            have := loop_ext (q := q) _ (p :: ps ++ q).length _ (by simp) hc
            rw [List.cons_append] at this
            rw [this]
          | done s =>
            rw [hc] at h
            dsimp only at h
            unfold coreTail at h
            split at h
            · cases h; cases hl
            · split at h
              · cases h
              · split at h
                · cases h
                · split at h
                  · cases h
                  · rw [extent_lost h] at hl; cases hl

end Lost
end Jin
