import Verif.Model.Parser
/-!
# Proof.Seq — the `sequance` of sequence.go is a stack

`pCore` keeps two of them; the model uses lists with the top first.
-/

namespace Jin

/-- `s` holds the stack `st` (top first). -/
def Seq.Holds (s : Seq) (st : List Int) : Prop :=
  s.index = st.length ∧ s.list.length = s.length ∧ s.list.take st.length = st.reverse

theorem Seq.Holds.le {s : Seq} {st : List Int} (h : s.Holds st) : st.length ≤ s.list.length := by
  have := congrArg List.length h.2.2
  simp at this
  omega

theorem makeSeq_holds (n : Nat) : (makeSeq n).Holds [] := by simp [Seq.Holds, makeSeq]

theorem Seq.push_holds {s : Seq} {st : List Int} (h : s.Holds st) (x : Int) :
    ∃ s', s.push x = .ok s' ∧ s'.Holds (x :: st) := by
  have hle := h.le
  obtain ⟨h1, h2, h3⟩ := h
  unfold Seq.push
  have room : ∀ (l : List Int), st.length < l.length → l.take st.length = st.reverse →
      (l.set st.length x).take (st.length + 1) = (x :: st).reverse := by
    intro l hl ht
    rw [List.take_add_one, List.take_set, List.set_eq_of_length_le (by simp; omega), ht]
    simp [hl]
  by_cases hf : s.index > (s.length : Int) - 1
  · have he : s.list.length = st.length := by omega
    simp only [hf, if_true]
    have hl : s.list.take (s.length + 4) ++ List.replicate (s.length + 4 - s.list.length) 0 =
        s.list ++ List.replicate 4 (0 : Int) := by
      rw [List.take_of_length_le (by omega), show s.length + 4 - s.list.length = 4 by omega]
    rw [hl, if_pos (by simp; omega)]
    refine ⟨_, rfl, by simp; omega, by simp; omega, ?_⟩
    rw [show s.index.toNat = st.length by omega]
    refine room _ (by simp; omega) ?_
    rw [List.take_append_of_le_length (by omega), h3]
  · simp only [hf, if_false]
    rw [if_pos (by omega)]
    refine ⟨_, rfl, by simp; omega, by simpa using h2, ?_⟩
    rw [show s.index.toNat = st.length by omega]
    exact room _ (by omega) h3

theorem Seq.top {s : Seq} {st : List Int} {x : Int} (h : s.Holds (x :: st)) : s.list[st.length]? = some x := by
  have := congrArg (fun l => l[st.length]?) h.2.2
  simpa [List.getElem?_take] using this

theorem Seq.pop_holds {s : Seq} {st : List Int} {x : Int} (h : s.Holds (x :: st)) :
    ∃ s', s.pop = .ok (x, s') ∧ s'.Holds st := by
  have ht := Seq.top h
  obtain ⟨h1, h2, h3⟩ := h
  simp only [List.length_cons] at h1
  unfold Seq.pop
  rw [if_pos (by omega)]
  simp only
  rw [if_pos (by omega), show (s.index - 1).toNat = st.length by omega, ht]
  refine ⟨_, rfl, by simp; omega, h2, ?_⟩
  have := congrArg (List.take st.length) h3
  simpa [List.take_take] using this

/-- Popping the empty stack is an index out of range. -/
theorem Seq.pop_empty {s : Seq} (h : s.Holds []) : s.pop = .panic := by
  obtain ⟨h1, -, -⟩ := h
  simp only [List.length_nil] at h1
  unfold Seq.pop
  rw [if_pos (by omega)]
  simp only
  rw [if_neg (by omega)]

theorem Seq.last_holds {s : Seq} {st : List Int} {x : Int} (h : s.Holds (x :: st)) : s.last = .ok x := by
  have ht := Seq.top h
  have h1 := h.1
  simp only [List.length_cons] at h1
  unfold Seq.last
  rw [if_pos (by omega), show (s.index - 1).toNat = st.length by omega, ht]

theorem Seq.last_empty {s : Seq} (h : s.Holds []) : s.last = .panic := by
  have h1 := h.1
  simp only [List.length_nil] at h1
  unfold Seq.last
  rw [if_neg (by omega)]

theorem Seq.inc_holds {s : Seq} {st : List Int} {x : Int} (h : s.Holds (x :: st)) :
    ∃ s', s.inc = .ok s' ∧ s'.Holds ((x + 1) :: st) := by
  have ht := Seq.top h
  have hle := h.le
  obtain ⟨h1, h2, h3⟩ := h
  simp only [List.length_cons] at h1 hle h3
  unfold Seq.inc
  rw [if_pos (by omega), show (s.index - 1).toNat = st.length by omega, ht]
  refine ⟨_, rfl, by simpa using h1, by simpa using h2, ?_⟩
  have h4 := congrArg (List.take st.length) h3
  simp only [List.take_take] at h4
  rw [List.length_cons, List.take_add_one, List.take_set, List.set_eq_of_length_le (by simp; omega)]
  rw [show min st.length (st.length + 1) = st.length by omega] at h4
  rw [h4]
  have : st.length < s.list.length := by omega
  simp [this]

theorem Seq.inc_empty {s : Seq} (h : s.Holds []) : s.inc = .panic := by
  have h1 := h.1
  simp only [List.length_nil] at h1
  unfold Seq.inc
  rw [if_neg (by omega)]

end Jin
