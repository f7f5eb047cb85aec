import Verif.Proof.NoPanic
import Verif.Proof.Shape
import Verif.Model.Iter
/-!
# Proof.Depth — a path that `core` follows is no longer than the place it leads to
-/

namespace Jin.Depth

/-- Not a success. -/
def Fails {α : Type} (r : Out α) : Prop := ∀ a, r ≠ .ok a

theorem fails_err {α : Type} {e : Err} : Fails (.err e : Out α) := fun _ h => nomatch h
theorem fails_panic {α : Type} : Fails (.panic : Out α) := fun _ h => nomatch h

theorem skipSpaces_ge {json : Bytes} {i j : Nat} (h : skipSpaces json i = some j) : i ≤ j := by
  fun_induction skipSpaces json i with
  | case1 => cases h
  | case2 i c hc hs ih => have := ih h; omega
  | case3 i c hc hs => cases h; exact Nat.le_refl _

theorem skipSpaces_some {json : Bytes} {i j : Nat} (h : skipSpaces json i = some j) : ∃ c, json[j]? = some c ∧ space c = false := by
  fun_induction skipSpaces json i with
  | case1 => cases h
  | case2 i c hc hs ih => exact ih h
  | case3 i c hc hs => cases h; exact ⟨c, hc, by simpa using hs⟩

/-! ### Keys -/

/-- `k` has not passed the position. -/
def KeyInv (k0 i : Nat) (t : KeySt) : Prop :=
  k0 ≤ t.k ∧ (t.found = false → t.k ≤ i) ∧ (t.found = true → t.k + 1 ≤ t.offset ∧ t.offset ≤ i)

theorem jump_fails (json : Bytes) (k : Nat) (cur : Bytes) (i : Nat) (s : JumpSt) :
    After (fun _ => True) Fails (forUp json.length (jumpBody json k cur) i s) := by
  refine forUp_inv (P := fun _ _ => True) (fun j s _ _ => ?_) (fun _ _ _ _ => trivial) trivial
  unfold jumpBody
  repeat' split
  all_goals first | trivial | exact fails_err | exact fails_panic

theorem keys_progress {json : Bytes} {path : List Bytes} {i : Nat} {s : KeySt} {k0 : Nat} (h : KeyInv k0 i s) :
    After (fun t => (t.found = true → t.k + 1 ≤ t.offset) ∧ k0 ≤ t.k) Fails (forUp json.length (keyBody json path) i s) := by
  refine forUp_inv (P := KeyInv k0) (fun i s hi h => ?_) (fun i s _ h => ⟨fun hf => (h.2.2 hf).1, h.1⟩) h
  have hk0 := h.1
  have hn : ∀ s', s'.k = s.k → s'.found = s.found → s'.offset = s.offset → KeyInv k0 (i + 1) s' := by
    intro s' h1 h2 h3
    refine ⟨by first | exact hk0 | (rw [h1]; exact hk0), fun hf => ?_, fun hf => ?_⟩
    · have := h.2.1 (by rw [← h2]; exact hf); omega
    · have := h.2.2 (by rw [← h2]; exact hf); omega
  unfold keyBody
  split
  · exact fails_panic
  · next curr hc =>
    split
    · exact hn s rfl rfl rfl
    split
    · split
      · exact hn s rfl rfl rfl
      split
      · exact hn s rfl rfl rfl
      split
      · exact hn s rfl rfl rfl
      · split <;> exact hn _ rfl rfl rfl
      · split <;> exact hn _ rfl rfl rfl
    split
    · exact hn s rfl rfl rfl
    have hk : s.k ≤ i := by
      cases hf : s.found
      · exact h.2.1 hf
      · have := h.2.2 hf; omega
    split
    · split
      · split
        · refine ⟨fun _ => ?_, hk0⟩; show s.k + 1 ≤ i + 1; omega
        · exact ⟨hk0, fun hf => (nomatch hf), fun _ => ⟨Nat.succ_le_succ hk, Nat.le_refl _⟩⟩
      · have hj := jump_fails json s.k s.cur i ⟨s.level, s.inQuote, none⟩
        revert hj
        generalize forUp json.length _ _ _ = r
        intro hj
        cases r with
        | ret r => exact hj
        | done js =>
          refine ⟨by first | exact hk0 | (rw [h1]; exact hk0), fun hf => ?_, fun hf => ?_⟩
          · have := h.2.1 hf; show s.k ≤ _; omega
          · have := h.2.2 hf; show s.k + 1 ≤ s.offset ∧ s.offset ≤ _; omega
    split
    · split
      · next hf =>
        split
        · exact fails_panic
        · refine ⟨fun _ => ?_, hk0⟩; have := h.2.2 hf; show s.k + 1 ≤ i; omega
      · exact hn _ rfl rfl rfl
    split
    · split
      · next hf =>
        split
        · exact fails_panic
        · refine ⟨Nat.le_succ_of_le hk0, fun _ => ?_, fun hf => nomatch hf⟩
          have := h.2.2 hf; show s.k + 1 ≤ i + 1; omega
      · exact hn _ rfl rfl rfl
    split
    · split
      · exact fails_err
      · exact hn _ rfl rfl rfl
    · exact hn _ rfl rfl rfl

/-! ### Arrays -/

theorem zero_progress {json : Bytes} {path : List Bytes} {k i : Nat} {s : ZeroSt} {o : Nat} (h : o ≤ i) (hs : o ≤ s.offset) :
    After (fun t => o ≤ t.offset) Fails (forUp json.length (zeroBody json path k) i s) := by
  refine forUp_inv (P := fun i s => o ≤ i ∧ o ≤ s.offset) (fun i s _ h => ?_) (fun _ _ _ h => h.2) ⟨h, hs⟩
  unfold zeroBody
  repeat' split
  all_goals first | exact fails_err | exact fails_panic | exact h.1 | exact h.2 | exact ⟨by omega, h.2⟩

theorem peek_fails (json : Bytes) (path : List Bytes) (k i : Nat) :
    After (fun _ => True) Fails (forUp json.length (peekBody json path k) i ()) := by
  refine forUp_inv (P := fun _ _ => True) (fun j s _ _ => ?_) (fun _ _ _ _ => trivial) trivial
  unfold peekBody
  repeat' split
  all_goals first | trivial | exact fails_err | exact fails_panic

/-- The place after the comma that starts the element with the given index. -/
def nth (json : Bytes) (n : Int) (i : Nat) (s : ArrSt) : LoopRes ArrSt (Out Loc) :=
  forUp json.length (arrBody json [[]] 0 n) i s

theorem peek_last (json : Bytes) (i : Nat) : forUp json.length (peekBody json [[]] 0) i () = .done () := by
  have : After (fun _ => True) (fun _ => False) (forUp json.length (peekBody json [[]] 0) i ()) := by
    refine forUp_inv (P := fun _ _ => True) (fun j s hj _ => ?_) (fun _ _ _ _ => trivial) trivial
    unfold peekBody
    rw [List.getElem?_eq_getElem hj]
    simp only [List.length_singleton, Nat.zero_add, bne_self_eq_false, Bool.false_eq_true, if_false]
    repeat' split
    all_goals trivial
  revert this
  generalize forUp json.length _ _ _ = r
  cases r with
  | done s => intro _; rfl
  | ret r => intro h; exact h.elim

/-- The body when nothing is found yet: it is that of the search for the place, up to the comma. -/
theorem arrBody_nth {json : Bytes} {path : List Bytes} {k : Nat} {n : Int} {i : Nat} {s : ArrSt} (hi : i < json.length) (hf : s.found = false) :
    (arrBody json path k n i s = arrBody json [[]] 0 n i s ∧
      ((∃ r, arrBody json path k n i s = .ret r ∧ Fails r) ∨ ∃ s', arrBody json path k n i s = .next s' ∧ s'.found = false ∧ s'.offset = s.offset ∧ s'.brace = s.brace ∧ s'.cur = s.cur)) ∨
    (∃ s', s' = { s with indexCount := s.indexCount + 1 } ∧ s.inQuote = false ∧
      arrBody json [[]] 0 n i s = .brk { s' with found := true, offset := i + 1 } ∧
      arrBody json path k n i s =
        match forUp json.length (peekBody json path k) (i + 1) () with
        | .ret r => .ret r
        | .done _ =>
          if k + 1 == path.length then .brk { s' with found := true, offset := i + 1 }
          else .next { s' with found := true }) := by
  unfold arrBody
  rw [List.getElem?_eq_getElem hi]
  simp only [hf, Bool.not_false, Bool.true_and, Bool.false_eq_true, if_false]
  split
  · exact .inl ⟨rfl, .inr ⟨_, rfl, by first | rfl | exact hf, rfl, rfl, rfl⟩⟩
  split
  · split <;> exact .inl ⟨rfl, .inr ⟨_, rfl, by first | rfl | exact hf, rfl, rfl, rfl⟩⟩
  split
  · exact .inl ⟨rfl, .inr ⟨_, rfl, by first | rfl | exact hf, rfl, rfl, rfl⟩⟩
  next hq =>
  split
  · split
    · refine .inr ⟨_, rfl, by simpa using hq, ?_, rfl⟩
      rw [peek_last]; rfl
    · exact .inl ⟨rfl, .inr ⟨_, rfl, by first | rfl | exact hf, rfl, rfl, rfl⟩⟩
  split
  · exact .inl ⟨rfl, .inr ⟨_, rfl, by first | rfl | exact hf, rfl, rfl, rfl⟩⟩
  split
  · split
    · exact .inl ⟨rfl, .inl ⟨_, rfl, fails_err⟩⟩
    · exact .inl ⟨rfl, .inr ⟨_, rfl, by first | rfl | exact hf, rfl, rfl, rfl⟩⟩
  · exact .inl ⟨rfl, .inr ⟨_, rfl, by first | rfl | exact hf, rfl, rfl, rfl⟩⟩

/-- From a place on there is only white space. -/
def Blank (json : Bytes) (i : Nat) : Prop := ∀ j c, i ≤ j → json[j]? = some c → space c = true

theorem blank_arr {json : Bytes} {path : List Bytes} {k : Nat} {n : Int} {i : Nat} {s : ArrSt} (h : Blank json i) :
    forUp json.length (arrBody json path k n) i s = .done s := by
  induction hn : json.length - i using Nat.strongRecOn generalizing i with
  | ind m ih =>
    rcases Nat.lt_or_ge i json.length with hi | hi
    · have hc := List.getElem?_eq_getElem hi
      have hb : arrBody json path k n i s = .next s := by
        unfold arrBody
        rw [hc]
        simp only [not_jsonChar_space (h i _ (Nat.le_refl _) hc), Bool.not_false, if_true]
      rw [forUp_next hi hb]
      exact ih _ (by omega) (fun j c hj => h j c (by omega)) rfl
    · exact forUp_end hi

theorem blank_skip {json : Bytes} {i : Nat} (h : Blank json i) : skipSpaces json i = none := by
  cases hj : skipSpaces json i with
  | none => rfl
  | some j =>
    obtain ⟨c, hc, hs⟩ := skipSpaces_some hj
    rw [h j c (skipSpaces_ge hj) hc] at hs
    cases hs

/-- After the comma, with more path to follow: there is only white space, or the search ends further on, or it fails. -/
theorem arr_after {json : Bytes} {path : List Bytes} {k : Nat} {n : Int} {s : ArrSt} (hf : s.found = true) (hq : s.inQuote = false)
    (hk : k + 1 ≠ path.length) : ∀ (i : Nat), forUp json.length (peekBody json path k) i () = .done () →
    Blank json i ∨ After (fun t => i ≤ t.offset) Fails (forUp json.length (arrBody json path k n) i s) := by
  intro i
  induction hn : json.length - i using Nat.strongRecOn generalizing i with
  | ind m ih =>
    intro hp
    rcases Nat.lt_or_ge i json.length with hi | hi
    · have hc := List.getElem?_eq_getElem hi
      cases hs : space json[i]
      · right
        have hb : (json[i] == 91 || json[i] == 123) = true := by
          cases hb : json[i] == 91 || json[i] == 123
          · exfalso
            rw [forUp_ret hi (r := .err .indexOutOfRange)] at hp
            · cases hp
            · unfold peekBody
              rw [hc]
              simp only [Bool.or_eq_false_iff] at hb
              simp only [hs, Bool.not_false, if_true, bne, hb.1, hb.2, Bool.and_self]
              rw [if_pos]
              simpa using hk
          · rfl
        have hj : isJSONChar true false json[i] = true := by
          rcases Bool.or_eq_true_iff.1 hb with h | h <;> rw [eq_of_beq h] <;> rfl
        have h34 : (json[i] == 34) = false := by
          rcases Bool.or_eq_true_iff.1 hb with h | h <;> rw [eq_of_beq h] <;> rfl
        have hbody : (∃ r, arrBody json path k n i s = .ret r ∧ Fails r) ∨ ∃ t, arrBody json path k n i s = .brk t ∧ t.offset = i := by
          unfold arrBody
          rw [hc]
          simp only [hj, h34, hq, hf, hb, Bool.not_true, Bool.false_and, Bool.false_eq_true, if_false, if_true]
          split
          · exact .inl ⟨_, rfl, fails_panic⟩
          · exact .inr ⟨_, rfl, rfl⟩
        rcases hbody with ⟨r, hr, hr'⟩ | ⟨t, ht, ho⟩
        · rw [forUp_ret hi hr]; exact hr'
        · rw [forUp_brk hi ht]; exact Nat.le_of_eq ho.symm
      · have hb : peekBody json path k i () = .next () := by
          unfold peekBody; rw [hc]; simp only [hs, Bool.not_true, Bool.false_eq_true, if_false]
        rw [forUp_next hi hb] at hp
        have hb2 : arrBody json path k n i s = .next s := by
          unfold arrBody
          rw [hc]
          simp only [not_jsonChar_space hs, Bool.not_false, if_true]
        rw [forUp_next hi hb2]
        rcases ih _ (by omega) (i + 1) rfl hp with h | h
        · left
          intro j c hj hjc
          rcases Nat.lt_or_ge i j with hlt | hge
          · exact h j c hlt hjc
          · have : j = i := by omega
            subst this
            rw [hc] at hjc; cases hjc; exact hs
        · right
          revert h
          generalize forUp json.length _ _ _ = r
          cases r with
          | ret r => exact id
          | done t => intro h; exact Nat.le_of_succ_le h
    · left
      intro j c hj hjc
      have := lt_of_getElem? hjc
      omega

/-- The search for an element: it fails, ends in front of it, or the document ends after the comma. -/
theorem arr_cases {json : Bytes} {path : List Bytes} {k : Nat} {n : Int} {i : Nat} {s : ArrSt} (hf : s.found = false) (hi : s.offset ≤ i) :
    (After (fun t => t.found = true → s.offset + 1 ≤ t.offset) Fails (forUp json.length (arrBody json path k n) i s)) ∨
    (∃ a t, nth json n i s = .done a ∧ a.found = true ∧ Blank json a.offset ∧ k + 1 ≠ path.length ∧
      forUp json.length (arrBody json path k n) i s = .done t ∧ t.offset = s.offset ∧ t.brace = s.brace ∧ t.cur = s.cur) := by
  induction hn : json.length - i using Nat.strongRecOn generalizing i s with
  | ind m ih =>
    rcases Nat.lt_or_ge i json.length with hlt | hge
    · rcases arrBody_nth (path := path) (k := k) (n := n) hlt hf with ⟨he, ⟨r, hr, hr'⟩ | ⟨s', hs', h1, h2, h3, h4⟩⟩ | ⟨s', hs', hq, h1, h2⟩
      · left; rw [forUp_ret hlt hr]; exact hr'
      · rw [forUp_next hlt hs', nth, forUp_next hlt (he ▸ hs'), ← h2, ← h3, ← h4]
        exact ih _ (by omega) h1 (by omega) rfl
      · have hpf := peek_fails json path k (i + 1)
        revert h2 hpf
        cases hp : forUp json.length (peekBody json path k) (i + 1) () with
        | ret r =>
          intro h2 hpf
          left; rw [forUp_ret hlt h2]; exact hpf
        | done u =>
          intro h2 _
          by_cases hk : k + 1 = path.length
          · simp only [hk, beq_self_eq_true, if_true] at h2
            left; rw [forUp_brk hlt h2]; intro _; show s.offset + 1 ≤ i + 1; omega
          · simp only [beq_iff_eq, hk, if_false] at h2
            rw [forUp_next hlt h2, nth, forUp_brk hlt h1]
            rcases arr_after (s := { s' with found := true }) (n := n) rfl (by rw [hs']; exact hq) hk (i + 1) hp with h | h
            · right
              refine ⟨_, _, rfl, rfl, h, hk, blank_arr h, ?_⟩
              subst hs'; exact ⟨rfl, rfl, rfl⟩
            · left
              revert h
              generalize forUp json.length _ _ _ = r
              cases r with
              | ret r => exact id
              | done t => intro h _; exact Nat.le_trans (Nat.succ_le_succ hi) h
    · left; rw [forUp_end hge]; intro h; rw [hf] at h; cases h

/-- With the place known to be at the end of the document, the search fails, stays or ends there. -/
theorem arr_blank {json : Bytes} {path : List Bytes} {k : Nat} {n : Int} {i : Nat} {s a : ArrSt} (hf : s.found = false)
    (ha : nth json n i s = .done a) (hb : Blank json a.offset) (haf : a.found = true) :
    After (fun t => t.found = true → (k + 1 = path.length ∧ t.offset = a.offset) ∨ (k + 1 ≠ path.length ∧ t.offset = s.offset ∧ t.brace = s.brace ∧ t.cur = s.cur)) Fails
      (forUp json.length (arrBody json path k n) i s) := by
  induction hn : json.length - i using Nat.strongRecOn generalizing i s with
  | ind m ih =>
    rcases Nat.lt_or_ge i json.length with hlt | hge
    · rw [nth] at ha
      rcases arrBody_nth (path := path) (k := k) (n := n) hlt hf with ⟨he, ⟨r, hr, hr'⟩ | ⟨s', hs', h1, h2, h3, h4⟩⟩ | ⟨s', hs', hq, h1, h2⟩
      · rw [forUp_ret hlt hr]; exact hr'
      · rw [forUp_next hlt (he ▸ hs')] at ha
        rw [forUp_next hlt hs', ← h2, ← h3, ← h4]
        exact ih _ (by omega) h1 ha rfl
      · rw [forUp_brk hlt h1] at ha
        cases ha
        have hpf := peek_fails json path k (i + 1)
        revert h2 hpf
        cases hp : forUp json.length (peekBody json path k) (i + 1) () with
        | ret r =>
          intro h2 hpf
          rw [forUp_ret hlt h2]; exact hpf
        | done u =>
          intro h2 _
          by_cases hk : k + 1 = path.length
          · simp only [hk, beq_self_eq_true, if_true] at h2
            rw [forUp_brk hlt h2]; intro _; exact .inl ⟨hk, rfl⟩
          · simp only [beq_iff_eq, hk, if_false] at h2
            rw [forUp_next hlt h2, blank_arr hb]
            intro _; subst hs'; exact .inr ⟨hk, rfl, rfl, rfl⟩
    · rw [forUp_end hge]; intro h; rw [hf] at h; cases h

/-! ### The loop over the path -/

/-- The state is at an element after which the document ends. -/
def Stuck (json : Bytes) (s : CoreSt) : Prop :=
  s.brace = 91 ∧ ∃ n a, atoi s.cur = some n ∧ n ≠ 0 ∧
    nth json n s.offset ⟨0, false, false, 0, s.offset, s.brace, s.cur⟩ = .done a ∧ a.found = true ∧ Blank json a.offset

theorem stuck_step {json : Bytes} {path : List Bytes} {s : CoreSt} (h : Stuck json s) :
    After (fun t => t.k = s.k ∧ ((s.k + 1 = path.length ∧ Blank json t.offset) ∨ (s.k + 1 ≠ path.length ∧ Stuck json t))) Fails (coreStep json path s) := by
  obtain ⟨hb, n, a, hn, h0, ha, hf, hbl⟩ := h
  have hx := arr_blank (path := path) (k := s.k) rfl ha hbl hf
  unfold coreStep
  rw [hb] at ha hx ⊢
  simp only [hn, beq_self_eq_true, if_true, beq_iff_eq, h0, if_false]
  revert hx
  generalize forUp json.length (arrBody json path s.k n) _ _ = r
  cases r with
  | ret r => exact id
  | done t =>
    intro hx
    dsimp only
    cases htf : t.found
    · exact fails_err
    · refine ⟨rfl, ?_⟩
      rcases hx htf with ⟨h1, h2⟩ | ⟨h1, h2, h3, h4⟩
      · refine .inl ⟨h1, ?_⟩
        show Blank json t.offset
        rw [h2]; exact hbl
      · refine .inr ⟨h1, h3, n, a, ?_, h0, ?_, hf, hbl⟩
        · show atoi t.cur = some n
          rw [h4]; exact hn
        · show nth json n t.offset ⟨0, false, false, 0, t.offset, t.brace, t.cur⟩ = .done a
          rw [h2, h3, h4]; exact ha

theorem core_step {json : Bytes} {path : List Bytes} {s : CoreSt} (h : s.k ≤ s.offset) :
    After (fun t => s.k ≤ t.k ∧ (t.k + 1 ≤ t.offset ∨ (t.k = s.k ∧ s.k + 1 ≠ path.length ∧ Stuck json t))) Fails (coreStep json path s) := by
  unfold coreStep
  split
  · next hb =>
    split
    · exact fails_err
    · next n hn =>
      split
      · have hz := zero_progress (json := json) (path := path) (k := s.k) (i := s.offset + 1) (s := ⟨s.offset + 1, s.brace, s.cur⟩) (o := s.offset + 1) (Nat.le_refl _) (Nat.le_refl _)
        revert hz
        generalize forUp json.length _ _ _ = r
        cases r with
        | ret r => exact id
        | done z => intro hz; exact ⟨Nat.le_refl _, .inl (Nat.le_trans (Nat.succ_le_succ h) hz)⟩
      · next h0 =>
        rcases arr_cases (json := json) (path := path) (k := s.k) (n := n) (i := s.offset)
            (s := ⟨0, false, false, 0, s.offset, s.brace, s.cur⟩) rfl (Nat.le_refl _) with hx | ⟨a, t, h1, h2, h3, h4, h5, h6, h7, h8⟩
        · revert hx
          generalize forUp json.length (arrBody json path s.k n) _ _ = r
          cases r with
          | ret r => exact id
          | done t =>
            intro hx
            dsimp only
            cases htf : t.found
            · exact fails_err
            · exact ⟨Nat.le_refl _, .inl (Nat.le_trans (Nat.succ_le_succ h) (hx htf))⟩
        · rw [h5]
          dsimp only
          cases htf : t.found
          · exact fails_err
          · refine ⟨Nat.le_refl _, .inr ⟨rfl, h4, ?_, n, a, ?_, by simpa using h0, ?_, h2, h3⟩⟩
            · show t.brace = 91
              rw [h7]; exact eq_of_beq hb
            · show atoi t.cur = some n
              rw [h8]; exact hn
            · show nth json n t.offset ⟨0, false, false, 0, t.offset, t.brace, t.cur⟩ = .done a
              rw [h6, h7, h8]; exact h1
  · have hx : After (fun t : KeySt => (t.found = true → t.k + 1 ≤ t.offset) ∧ s.k ≤ t.k) Fails
        (forUp json.length (keyBody json path) s.offset ⟨s.k, s.k, false, false, 0, 0, s.offset, s.brace, s.cur, s.keyStart⟩) := by
      exact keys_progress ⟨Nat.le_refl _, fun _ => h, fun hf => nomatch hf⟩
    revert hx
    generalize forUp json.length (keyBody json path) _ _ = r
    cases r with
    | ret r => exact id
    | done t =>
      intro hx
      dsimp only
      cases htf : t.found
      · exact fails_err
      · exact ⟨hx.2, .inl (hx.1 htf)⟩

theorem stuck_loop {json : Bytes} {path : List Bytes} (js : Bool) : ∀ (fuel : Nat) (s : CoreSt), path.length ≤ s.k + fuel → s.k < path.length →
    Stuck json s → After (fun t => Fails (coreTail json js t)) Fails (coreLoop json path fuel s)
  | 0, s, hf, hk, _ => absurd hf (by omega)
  | fuel + 1, s, hf, hk, h => by
    rw [coreLoop, if_pos hk]
    have hx := stuck_step (path := path) h
    revert hx
    generalize coreStep json path s = r
    cases r with
    | ret r => exact id
    | done t =>
      intro ⟨h1, h2⟩
      rcases h2 with ⟨h2, h3⟩ | ⟨h2, h3⟩
      · have he : ∀ fuel, coreLoop json path fuel { t with k := t.k + 1 } = .done { t with k := t.k + 1 } := by
          intro fuel
          cases fuel with
          | zero => rfl
          | succ n => rw [coreLoop, if_neg (by show ¬ t.k + 1 < path.length; omega)]
        dsimp only
        rw [he]
        show Fails (coreTail json js _)
        rw [coreTail]
        split
        · exact fails_err
        · rw [blank_skip h3]; exact fails_panic
      · exact stuck_loop js fuel _ (by show path.length ≤ t.k + 1 + fuel; omega) (by show t.k + 1 < path.length; omega) h3

theorem core_loop {json : Bytes} {path : List Bytes} (js : Bool) : ∀ (fuel : Nat) (s : CoreSt), path.length ≤ s.k + fuel → s.k ≤ s.offset →
    After (fun t => path.length ≤ t.offset ∨ Fails (coreTail json js t)) Fails (coreLoop json path fuel s)
  | 0, s, hf, h => .inl (by show path.length ≤ s.offset; omega)
  | fuel + 1, s, hf, h => by
    rw [coreLoop]
    split
    · next hk =>
      have hx := core_step (json := json) (path := path) h
      revert hx
      generalize coreStep json path s = r
      cases r with
      | ret r => exact id
      | done t =>
        intro ⟨h1, h2⟩
        rcases h2 with h2 | ⟨h2, h3, h4⟩
        · exact core_loop js fuel _ (by show path.length ≤ t.k + 1 + fuel; omega) h2
        · have := stuck_loop (path := path) js fuel { t with k := t.k + 1 } (by show path.length ≤ t.k + 1 + fuel; omega) (by show t.k + 1 < path.length; omega) h4
          revert this
          dsimp only
          generalize coreLoop json path fuel _ = r
          cases r with
          | ret r => exact id
          | done t => exact .inr
    · exact .inl (by omega)

theorem extent_start {json : Bytes} {ks : Int} {o : Nat} {c : UInt8} {l : Loc} (h : extent json ks o c = .ok l) : o ≤ l.start := by
  have hx : After (fun _ => True) (fun r : Out Loc => ∀ l, r = .ok l → o ≤ l.start) 
      (if c == 91 || c == 123 then
        match forUp json.length (braceBody json ks o) o (0, false) with
        | .ret r => .ret r
        | .done _ => .done ()
      else if c == 34 then forUp json.length (stringBody json ks o) (o + 1) ()
      else forUp json.length (plainBody json ks o) o () : LoopRes Unit (Out Loc)) := by
    split
    · have : After (fun _ => True) (fun r : Out Loc => ∀ l, r = .ok l → o ≤ l.start) (forUp json.length (braceBody json ks o) o (0, false)) := by
        refine forUp_inv (P := fun _ _ => True) (fun j s _ _ => ?_) (fun _ _ _ _ => trivial) trivial
        unfold braceBody
        repeat' split
        all_goals first | trivial | (intro l h; cases h; exact Nat.le_refl _) | (intro l h; cases h)
      revert this
      generalize forUp json.length (braceBody json ks o) _ _ = r
      cases r with
      | ret r => exact id
      | done t => exact id
    split
    · refine forUp_inv (P := fun _ _ => True) (fun j s _ _ => ?_) (fun _ _ _ _ => trivial) trivial
      unfold stringBody
      repeat' split
      all_goals first | trivial | (intro l h; cases h; exact Nat.le_succ _) | (intro l h; cases h)
    · refine forUp_inv (P := fun _ _ => True) (fun j s _ _ => ?_) (fun _ _ _ _ => trivial) trivial
      unfold plainBody
      repeat' split
      all_goals first | trivial | (intro l h; cases h; exact Nat.le_refl _) | (intro l h; cases h)
  unfold extent at h
  revert h hx
  generalize (if c == 91 || c == 123 then _ else _ : LoopRes Unit (Out Loc)) = r
  cases r with
  | ret r => intro h hx; exact hx l h
  | done t => intro h; cases h

theorem tail_start {json : Bytes} {js : Bool} {s : CoreSt} {l : Loc} (h : coreTail json js s = .ok l) : s.offset ≤ l.start := by
  unfold coreTail at h
  split at h
  · cases h
  split at h
  · cases h
  · next o ho =>
    have := skipSpaces_ge ho
    split at h
    · cases h; exact this
    split at h
    · cases h
    · exact Nat.le_trans this (extent_start h)

theorem tail_lt {json : Bytes} {js : Bool} {s : CoreSt} {l : Loc} (h : coreTail json js s = .ok l) : s.offset < json.length := by
  unfold coreTail at h
  split at h
  · cases h
  split at h
  · cases h
  · next o ho =>
    obtain ⟨c, hc, _⟩ := skipSpaces_some ho
    exact Nat.lt_of_le_of_lt (skipSpaces_ge ho) (lt_of_getElem? hc)

/-- A path that `core` follows to the end is no longer than the number of bytes in front of what it finds. -/
theorem core_length {json : Bytes} {js : Bool} {path : List Bytes} {l : Loc} (h : core json js path = .ok l) :
    path.length ≤ l.start ∧ path.length < json.length := by
  unfold core at h
  split at h
  · cases h
  cases path with
  | nil => cases h
  | cons p ps =>
    dsimp only at h
    cases ho : skipSpaces json 0 with
    | none => rw [ho] at h; cases h
    | some o =>
      rw [ho] at h
      dsimp only at h
      cases hb : json[o]? with
      | none => rw [hb] at h; cases h
      | some brace =>
        rw [hb] at h
        have hx := core_loop (json := json) (path := p :: ps) js (p :: ps).length ⟨0, o, brace, p, -1⟩ (by simp) (Nat.zero_le _)
        revert h hx
        dsimp only
        generalize coreLoop json (p :: ps) _ _ = r
        cases r with
        | ret r => intro h hx; exact absurd h (hx l)
        | done t =>
          intro h hx
          rcases hx with hx | hx
          · exact ⟨Nat.le_trans hx (tail_start h), Nat.lt_of_le_of_lt hx (tail_lt h)⟩
          · exact absurd h (hx l)

theorem valueStart_length {json : Bytes} {path : List Bytes} {i : Nat} (h : valueStart json path = .ok i) : path.length < json.length := by
  unfold valueStart at h
  split at h
  · next hp =>
    split at h
    · cases h
    · next s hs =>
      obtain ⟨c, hc, _⟩ := skipSpaces_some hs
      have := lt_of_getElem? hc
      have := eq_of_beq hp
      omega
  · cases hc : core json true path with
    | ok l => exact (core_length hc).2
    | err e => rw [hc] at h; cases h
    | panic => rw [hc] at h; cases h

theorem GetType_length {isFloat : Bytes → Bool} {json : Bytes} {path : List Bytes} {t : JType} (h : GetType isFloat json path = .ok t) :
    path.length < json.length := by
  unfold GetType typeControlCore at h
  cases hl : json.length == 0
  · rw [hl] at h
    cases hv : valueStart json path with
    | ok i => exact valueStart_length hv
    | err e => rw [hv] at h; cases h
    | panic => rw [hv] at h; cases h
  · rw [hl] at h; cases h

/-- The limit on the recursion of `walk` makes no difference once it is larger than what is left of the document. -/
theorem walk_enough {σ : Type} {isFloat : Bytes → Bool} {json : Bytes} {cb : σ → Bytes → Bytes → List Bytes → Cb σ} :
    ∀ (m n : Nat) (path : List Bytes) (u : σ), json.length < path.length + (m + 1) → json.length < path.length + (n + 1) →
      walk isFloat json cb (m + 1) path u = walk isFloat json cb (n + 1) path u
  | m, n, path, u, hm, hn => by
    rw [walk, walk]
    cases ht : GetType isFloat json path with
    | panic => rfl
    | err e => rfl
    | ok t =>
      have hl := GetType_length ht
      obtain ⟨m, rfl⟩ : ∃ k, m = k + 1 := ⟨m - 1, by omega⟩
      obtain ⟨n, rfl⟩ : ∃ k, n = k + 1 := ⟨n - 1, by omega⟩
      have hw : ∀ k u, walk isFloat json cb (m + 1) (path ++ [k]) u = walk isFloat json cb (n + 1) (path ++ [k]) u := fun k u =>
        walk_enough m n (path ++ [k]) u (by rw [List.length_append, List.length_singleton]; omega) (by rw [List.length_append, List.length_singleton]; omega)
      cases t <;> simp only [hw]

end Jin.Depth
