import Verif.Go.Utils
/-!
# Go.Scan — loops of the text that look for a byte that is not a space
-/

namespace Jin.Go

section
variable {W : Type}

/-- How a loop ends when this is how a round ends, if no other round follows. -/
def Res.halts : Res W → Option (Res W)
  | .brk s => some (.norm s.leave)
  | .jump l s => some (.jump l s.leave)
  | .ret w vs => some (.ret w vs)
  | .panic => some .panic
  | _ => none

attribute [go_run] Res.halts

theorem loopN_halts {c : St W → R Bool} {post body : St W → Res W} {n : Nat} {s : St W} {r : Res W}
    (hc : c s = .ok true) (hb : (body s).halts = some r) : (loopN c post body (n + 1) s).leave = r := by
  simp only [loopN, hc, Res.ofR, if_true]
  cases h : body s <;> simp only [h, Res.halts, reduceCtorEq, Option.some.injEq] at hb <;> subst hb <;> rfl

/-- `for i := …; i < hi; i++ { if !space(json[i]) { … } }` -/
theorem loop_first {c : St W → R Bool} {post body : St W → Res W} {json : Bytes} {hi : Nat} (E : Nat → St W) (A : Nat → Res W)
    (hc : ∀ i, c (E i) = .ok (decide (i < hi)))
    (hhi : hi ≤ json.length)
    (hb : ∀ i ch, i < hi → json[i]? = some ch → space ch = true → ∃ t, (body (E i)).goes = some t ∧ post t = .norm (E (i + 1)))
    (hs : ∀ i ch, i < hi → json[i]? = some ch → space ch = false → (body (E i)).halts = some (A i)) :
    ∀ n i, hi - i < n → (loopN c post body n (E i)).leave =
      match firstNS json i hi with | some j => A j | none => .norm (E (max i hi)).leave := by
  intro n
  induction n with
  | zero => intro i h; omega
  | succ n ih =>
    intro i hn
    rw [firstNS]
    by_cases hi' : i < hi
    · have hlt : i < json.length := by omega
      have hg := List.getElem?_eq_getElem hlt
      have hct : c (E i) = .ok true := by rw [hc]; simp [hi']
      rw [if_pos hi', hg]
      cases hx : space json[i] with
      | true =>
        obtain ⟨t, h1, h2⟩ := hb i _ hi' hg hx
        rw [loopN_goes hct h1, h2]
        simp only [hx, if_true, Res.andThen]
        rw [ih (i + 1) (by omega), show max (i + 1) hi = max i hi by omega]
      | false =>
        rw [loopN_halts hct (hs i _ hi' hg hx)]
        simp [hx]
    · rw [if_neg hi', loopN_end (by rw [hc]; simp [hi']), show max i hi = i by omega]
      rfl

/-- `for i := hi - 1; i >= lo; i-- { if !space(json[i]) { … } }` -/
theorem loop_last {c : St W → R Bool} {post body : St W → Res W} {json : Bytes} {lo : Nat} (E : Int → St W) (A : Nat → Res W)
    (hc : ∀ i, c (E i) = .ok (decide ((lo : Int) ≤ i)))
    (hb : ∀ (i : Nat) ch, json[i]? = some ch → space ch = true →
      ∃ t, (body (E i)).goes = some t ∧ post t = .norm (E ((i : Int) - 1)))
    (hs : ∀ (i : Nat) ch, json[i]? = some ch → space ch = false → (body (E i)).halts = some (A i)) :
    ∀ n (hi : Nat), hi ≤ json.length → hi < n → (loopN c post body n (E ((hi : Int) - 1))).leave =
      match lastNS json lo hi with | some j => A j | none => .norm (E (min (hi : Int) lo - 1)).leave := by
  intro n
  induction n with
  | zero => intro i _ h; omega
  | succ n ih =>
    intro hi hl hn
    cases hi with
    | zero =>
      rw [lastNS, loopN_end (by rw [hc]; simp; omega), show min ((0 : Nat) : Int) lo = (0 : Nat) by omega]
      rfl
    | succ m =>
      have e : ((m + 1 : Nat) : Int) - 1 = (m : Int) := by omega
      rw [lastNS, e]
      by_cases hm : m < lo
      · rw [if_pos hm, loopN_end (by rw [hc]; simp; omega)]
        simp only [Res.leave]
        congr 4
        omega
      · have hlt : m < json.length := by omega
        have hg := List.getElem?_eq_getElem hlt
        have hct : c (E (m : Int)) = .ok true := by rw [hc]; simp; omega
        rw [if_neg hm, hg]
        cases hx : space json[m] with
        | true =>
          obtain ⟨t, h1, h2⟩ := hb m _ hg hx
          rw [loopN_goes hct h1, h2]
          simp only [hx, if_true, Res.andThen]
          rw [ih m (by omega) (by omega), show min ((m + 1 : Nat) : Int) lo = min (m : Int) lo by omega]
        | false =>
          rw [loopN_halts hct (hs m _ hg hx)]
          simp [hx]

/-- `for space(json[end]) { … end-- }` -/
theorem loop_skip_down {c : St W → R Bool} {post body : St W → Res W} {json : Bytes} {lo : Nat} (E : Int → St W)
    (hlo : ∃ ch, json[lo]? = some ch ∧ space ch = false)
    (hc : ∀ i : Nat, c (E i) = match json[i]? with | some ch => .ok (space ch) | none => .panic)
    (hb : ∀ i : Nat, lo < i → i < json.length → ∃ t, (body (E i)).goes = some t ∧ post t = .norm (E ((i : Int) - 1))) :
    ∀ n (m : Nat), lo < m → m < n → m ≤ json.length → loopN c post body n (E ((m : Int) - 1)) =
      match skipSpacesDown json m with | some j => .norm (E j) | none => .panic := by
  intro n
  induction n with
  | zero => intro m _ h; omega
  | succ n ih =>
    intro m hm hn hl
    obtain ⟨m, rfl⟩ : ∃ k, m = k + 1 := ⟨m - 1, by omega⟩
    have e : ((m + 1 : Nat) : Int) - 1 = (m : Int) := by omega
    have hg := List.getElem?_eq_getElem (show m < json.length by omega)
    rw [skipSpacesDown, e, hg]
    cases hx : space json[m] with
    | true =>
      have hm' : lo < m := by
        obtain ⟨ch, h3, h4⟩ := hlo
        rcases Nat.lt_or_ge lo m with h | h
        · exact h
        · have h5 : lo = m := by omega
          rw [h5, hg] at h3
          cases h3
          rw [h4] at hx
          cases hx
      obtain ⟨t, h1, h2⟩ := hb m hm' (by omega)
      rw [loopN_goes (by rw [hc, hg]; simp [hx]) h1, h2]
      simp only [Res.andThen, hx, if_true]
      exact ih m hm' (by omega) (by omega)
    | false =>
      rw [loopN_end (by rw [hc, hg]; simp [hx])]
      simp [hx]

end

end Jin.Go
