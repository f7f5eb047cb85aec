import Verif.Proof.RobustParse
import Verif.Props.Robust
/-!
# Props.RobustParse — C92: the texts on which `Parse` panics
-/

namespace Jin
open Spec

/-- Whitespace changes nothing. -/
theorem scan_ws {w : Text} (h : Ws w = true) : scan w = .init := by
  have : ∀ (w : Text) (s : Scan), Ws w = true → s = .init → w.foldl Scan.step s = .init := by
    intro w
    induction w with
    | nil => intro s _ hs; exact hs
    | cons c w ih =>
      intro s hw hs
      simp only [Ws, List.all_cons, Bool.and_eq_true] at hw
      refine ih _ hw.2 ?_
      have hc := hw.1
      subst hs
      have : c ≠ 34 ∧ c ≠ 91 ∧ c ≠ 123 ∧ c ≠ 93 ∧ c ≠ 125 := by
        refine ⟨?_, ?_, ?_, ?_, ?_⟩ <;> rintro rfl <;> cases hc
      simp [Scan.step, Scan.init, this]
  exact this w _ h rfl

theorem upto_zero (json : Bytes) (j : Nat) : upto json 0 j = scan (json.take j) := by simp [upto]

theorem pcGood_iff (json : Bytes) (ns : Bool) : PcGood json ns ↔
    ¬ ((∃ p q, json = p ++ q ∧ (scan p).depth < 0) ∨
      (ns = true ∧ ∃ pre post, json = pre ++ 58 :: post ∧ (scan pre).inStr = false ∧ (scan pre).closed = false)) := by
  constructor
  · rintro ⟨h1, h2⟩ (⟨p, q, hpq, hd⟩ | ⟨hn, pre, post, hpp, hi, hcl⟩)
    · have := h1 p.length (by rw [hpq]; simp)
      rw [upto_zero, hpq] at this
      simp at this; omega
    · have hp : upto json 0 pre.length = scan pre := by rw [upto_zero, hpp]; simp
      have := h2 hn pre.length (by rw [hpp]; simp) (by rw [hp]; exact hi)
      rw [hp, hcl] at this; cases this
  · intro h
    refine ⟨fun j hj => ?_, fun hn b hb hi => ?_⟩
    · rw [upto_zero]
      rcases Classical.em ((scan (json.take j)).depth < 0) with hlt | hge
      · exact absurd (.inl ⟨json.take j, json.drop j, (List.take_append_drop j json).symm, hlt⟩) h
      · omega
    · rw [upto_zero] at hi ⊢
      cases hcl : (scan (json.take b)).closed with
      | true => rfl
      | false =>
        have := drop_split (json := json) (a := 0) (Nat.zero_le b) hb
        simp only [List.drop_zero, Nat.sub_zero] at this
        exact absurd (.inr ⟨hn, _, _, this, hi, hcl⟩) h

theorem pCore_panic (json : Bytes) (core : Node) : pCore json core = .panic ↔
    2 ≤ json.length ∧ (Ws json = true ∨ (∃ p q, json = p ++ q ∧ (scan p).depth < 0) ∨
      ((∃ c t, json = c :: t ∧ isWs c = true) ∧
        ∃ pre post, json = pre ++ 58 :: post ∧ (scan pre).inStr = false ∧ (scan pre).closed = false)) := by
  unfold pCore
  by_cases hl : json.length < 2
  · rw [if_pos hl]
    exact ⟨(fun h => by cases h), fun h => by omega⟩
  · rw [if_neg hl]
    have hl2 : 2 ≤ json.length := by omega
    simp only [hl2, true_and]
    rcases skipSpaces_cases json 0 with ⟨h1, h2⟩ | ⟨j, c, h1, -, h3, h4, h5⟩
    · rw [h1]
      refine ⟨fun _ => .inl ?_, fun _ => rfl⟩
      have := ws_of_space (json := json) (lo := 0) (hi := json.length) (fun m b _ _ => h2 m b (Nat.zero_le _))
      simpa using this
    · rw [h1]
      simp only
      have hw := ws_of_space (json := json) (lo := 0) (hi := j) (fun m b h6 h7 => h5 m b h6 h7)
      simp only [List.drop_zero, Nat.sub_zero] at hw
      have hu : ∀ k, k ≤ j → upto json 0 k = .init := fun k hk => by
        rw [upto_zero]
        refine scan_ws ?_
        unfold Ws at hw ⊢
        rw [List.all_eq_true] at hw ⊢
        intro x hx
        refine hw x ?_
        rw [show json.take k = (json.take j).take k by rw [List.take_take, Nat.min_eq_left hk]] at hx
        exact List.mem_of_mem_take hx
      have hnsp : (0 < j) ↔ (∃ c t, json = c :: t ∧ isWs c = true) := by
        cases hjs : json with
        | nil => rw [hjs] at hl2; simp at hl2
        | cons x t =>
          constructor
          · intro hj
            exact ⟨x, t, rfl, h5 0 x (Nat.le_refl _) hj (by rw [hjs]; rfl)⟩
          · rintro ⟨y, t', ht, hy⟩
            injection ht with ht1 ht2
            rcases Nat.eq_zero_or_pos j with h0 | h0
            · subst h0
              rw [hjs] at h3
              simp at h3
              rw [← h3, ht1, show space y = isWs y from rfl, hy] at h4; cases h4
            · exact h0
      have hinv : PcInv json (decide (0 < j)) j ⟨core, [], [], [0], false, j, 0, [], 0, 0⟩ := by
        refine ⟨⟨Nat.zero_le _, by rw [hu j (Nat.le_refl _)]; rfl, by rw [hu j (Nat.le_refl _)]; rfl, by simp⟩, rfl, rfl, by simp, Nat.zero_le _,
          fun _ => ⟨rfl, fun _ => by simp⟩, fun h => ?_, by simp, Nat.zero_le _, fun k hk => by rw [hu k hk]; exact Int.le_refl _, fun _ b hb h58 => ?_⟩
        · rw [hu j (Nat.le_refl _)] at h; cases h
        · exact absurd (h5 b 58 (Nat.zero_le _) hb h58) (by decide)
      have hloop := pc_loop hinv
      have hnb : ¬ Ws json = true := fun hws => by
        unfold Ws at hws
        rw [List.all_eq_true] at hws
        have := hws c (List.mem_of_getElem? h3)
        rw [show isWs c = space c from rfl, h4] at this; cases this
      cases hf : forUp json.length (pcBody json) j ⟨core, [], [], [0], false, j, 0, [], 0, 0⟩ with
      | ret u =>
        rw [hf] at hloop
        refine ⟨fun _ => .inr ?_, fun _ => rfl⟩
        have := Classical.not_not.1 (fun h => hloop ((pcGood_iff json (decide (0 < j))).2 h))
        rwa [decide_eq_true_eq, hnsp] at this
      | done s =>
        rw [hf] at hloop
        refine ⟨(fun h => by cases h), fun h => ?_⟩
        have := (pcGood_iff json (decide (0 < j))).1 hloop
        rw [decide_eq_true_eq, hnsp] at this
        exact absurd (h.resolve_left hnb) this

/-- **C92** `Parse` panics exactly on texts of at least two bytes that are blank, or close a bracket
that was not opened, or begin with whitespace and have a colon outside strings before any string
has ended. -/
theorem C92_parse (json : Bytes) : Parse json = .panic ↔
    2 ≤ json.length ∧ (Ws json = true ∨ (∃ p q, json = p ++ q ∧ (scan p).depth < 0) ∨
      ((∃ c t, json = c :: t ∧ isWs c = true) ∧
        ∃ pre post, json = pre ++ 58 :: post ∧ (scan pre).inStr = false ∧ (scan pre).closed = false)) := by
  rw [← pCore_panic json (.mk [] [] [])]
  unfold Parse
  cases pCore json (.mk [] [] []) with
  | panic => exact ⟨fun _ => rfl, fun _ => rfl⟩
  | err e => exact ⟨(fun h => by cases h), fun h => by cases h⟩
  | ok n =>
    refine ⟨fun h => ?_, fun h => by cases h⟩
    simp only [Out.bind_ok] at h
    cases hd : n.down with
    | nil => rw [hd] at h; cases h
    | cons x xs => rw [hd] at h; cases h

/-- **C92** In particular truncated texts and texts without brackets are parsed or refused. -/
theorem C92_no_panic (json : Bytes) (hb : ∀ p q, json = p ++ q → 0 ≤ (scan p).depth) (hw : ∀ c, json.head? = some c → isWs c = false)
    : Parse json ≠ .panic := by
  rw [Ne, C92_parse]
  rintro ⟨hl, h | ⟨p, q, hpq, hd⟩ | ⟨⟨c, t, ht, hc⟩, -⟩⟩
  · cases json with
    | nil => simp at hl
    | cons c t =>
      have := hw c rfl
      simp [Ws, this] at h
  · have := hb p q hpq; omega
  · have := hw c (by rw [ht]; rfl); rw [hc] at this; cases this

/-- Texts of each kind, and one that is no JSON and is parsed. -/
theorem C92_fails : Parse (str "  ") = .panic ∧ Parse (str "[1]]") = .panic ∧ Parse (str " {:1}") = .panic ∧
    (∃ p, Parse (str "{:1,]\"x") = .ok p) := by
  refine ⟨?_, ?_, ?_, ?_⟩
  · exact (C92_parse _).2 (by refine ⟨by decide +kernel, .inl (by decide +kernel)⟩)
  · exact (C92_parse _).2 ⟨by decide +kernel, .inr (.inl ⟨str "[1]]", [], by decide +kernel, by decide +kernel⟩)⟩
  · exact (C92_parse _).2 ⟨by decide +kernel, .inr (.inr ⟨⟨32, str "{:1}", by decide +kernel, by decide⟩,
      str " {", str "1}", by decide +kernel, by decide +kernel, by decide +kernel⟩)⟩
  · have h : (match Parse (str "{:1,]\"x") with | .ok _ => true | _ => false) = true := by decide +kernel
    revert h
    cases Parse (str "{:1,]\"x") with
    | ok p => intro _; exact ⟨p, rfl⟩
    | err e => intro h; cases h
    | panic => intro h; cases h

end Jin
