import Verif.Go.ParserInsert
/-!
# Go.ParserKeep — the mutators of a parser leave no pointer that points nowhere
-/

namespace Jin.Go

section
variable {h h' : NHeap} {p : ParserP}

theorem pCoreP_closed {json : Bytes} {core : Nat} (hh : Closed h) (hc : core < h.length) (e : pCoreP json core h = some h') : Closed h' ∧ h.length ≤ h'.length :=
  (run_pCore (fl := ⟨fun _ => none, fun _ => []⟩) (fuel := json.length + 1) (d := 0) (Nat.lt_succ_self _) false h core hh hc).2 h' e

/-- What a mutator leaves. -/
def Sound (h : NHeap) (p : ParserP) : PResP → Prop
  | .done p' h' _ => Closed h' ∧ h.length ≤ h'.length ∧ p'.core = p.core
  | .panic => True

theorem new_closed (hh : Closed h) : Closed (h ++ [⟨[], [], none, []⟩]) := hh.new (by simp) (by simp)

theorem newNodeP_closed {c : Bool} {l v : Bytes} {q : Nat} (hh : Closed h) (e : newNodeP h c l v = some (h', q)) : Closed h' ∧ h.length ≤ h'.length ∧ q < h'.length := by
  cases c with
  | false =>
    rw [newNode_false] at e
    cases e
    exact ⟨((new_closed hh).setLabel _ _).setValue _ _, by simp, by simp⟩
  | true =>
    rw [newNode_true] at e
    cases hp : pCoreP v h.length (h ++ [⟨[], [], none, []⟩]) with
    | none => rw [hp] at e; cases e
    | some h1 =>
      rw [hp] at e
      cases e
      obtain ⟨a, b⟩ := pCoreP_closed (new_closed hh) (by simp) hp
      rw [List.length_append, List.length_singleton] at b
      exact ⟨(a.setLabel _ _).setValue _ _, by simp; omega, by simp; omega⟩

theorem bareNodeP_closed {c : Bool} {v : Bytes} {q : Nat} (hh : Closed h) (e : bareNodeP h c v = some (h', q)) : Closed h' ∧ h.length ≤ h'.length ∧ q < h'.length := by
  cases c with
  | false =>
    cases e
    exact ⟨new_closed hh, by simp, by simp⟩
  | true =>
    replace e : (pCoreP v h.length (h ++ [⟨[], [], none, []⟩])).map (fun h1 => (h1, h.length)) = some (h', q) := e
    cases hp : pCoreP v h.length (h ++ [⟨[], [], none, []⟩]) with
    | none => rw [hp] at e; cases e
    | some h1 =>
      rw [hp] at e
      cases e
      obtain ⟨a, b⟩ := pCoreP_closed (new_closed hh) (by simp) hp
      rw [List.length_append, List.length_singleton] at b
      exact ⟨a, by omega, by omega⟩

theorem attach_closed {curr q : Nat} (hh : Closed h) (hq : q < h.length) (hc : curr < h.length) : Closed (h.attach curr q) ∧ (h.attach curr q).length = h.length := by
  refine ⟨Closed.setUp (Closed.addDown hh _ hq) _ fun x hx => ?_, by simp [NHeap.attach]⟩
  cases hx; simpa using hc

theorem climb_closed {json : Bytes} {e : Option Err} : ∀ (qs : List (List Bytes)) (curr : Nat) (h : NHeap), Closed h → climb json qs curr h = some (h', e) → Closed h' ∧ h'.length = h.length := by
  intro qs
  induction qs with
  | nil => intro curr h hh e; cases e; exact ⟨hh, rfl⟩
  | cons q qs ih =>
    intro curr h hh e
    rw [climb] at e
    split at e
    · cases e
    · split at e
      · cases e
      · cases e; exact ⟨hh.setValue _ _, by simp⟩
      · obtain ⟨a, b⟩ := ih _ _ (hh.setValue _ _) e
        exact ⟨a, by rw [b]; simp⟩

theorem climbQuiet_closed {json : Bytes} : ∀ (qs : List (List Bytes)) (curr : Nat) (h : NHeap), Closed h → climbQuiet json qs curr h = some h' → Closed h' ∧ h'.length = h.length := by
  intro qs
  induction qs with
  | nil => intro curr h hh e; cases e; exact ⟨hh, rfl⟩
  | cons q qs ih =>
    intro curr h hh e
    rw [climbQuiet] at e
    split at e
    · cases e
    · split at e
      · cases e
      all_goals
        obtain ⟨a, b⟩ := ih _ _ (hh.setValue _ _) e
        exact ⟨a, by rw [b]; simp⟩

theorem finish_sound {h0 : NHeap} {json : Bytes} {qs : List (List Bytes)} {curr : Nat} (hh : Closed h) (hl : h0.length ≤ h.length) : Sound h0 p (finishP p json qs curr h) := by
  unfold finishP
  split
  · trivial
  · next h' e he =>
    obtain ⟨a, b⟩ := climb_closed _ _ _ hh he
    exact ⟨a, by omega, rfl⟩

theorem same_sound (hh : Closed h) {e : Option Err} : Sound h p (.done p h e) := ⟨hh, Nat.le_refl _, rfl⟩

variable (hh : Closed h) (hp : p.core < h.length)
include hh hp

theorem Set_sound (newVal : Bytes) (path : List Bytes) : Sound h p (p.Set h newVal path) := by
  unfold ParserP.Set
  split
  · exact same_sound hh
  split
  · trivial
  · exact same_sound hh
  next curr hw =>
  have hc := walk_lt hh path hp hw
  simp only
  split
  · split
    · trivial
    next h1 h1e =>
    obtain ⟨a, b⟩ := pCoreP_closed (new_closed hh) (by simp [createNode, NHeap.new]) h1e
    have hlen : (createNode h none).1.length = h.length + 1 := by simp [createNode, NHeap.new]
    have b : h.length + 1 ≤ h1.length := by simpa using b
    split
    · trivial
    next r hr =>
    have a2 : Closed ((h1.setLabel (createNode h none).2 r.label).setUp (createNode h none).2 r.up) := (a.setLabel _ _).setUp _ fun u hu => by
      simpa using (a _ r hr).1 u hu
    split
    · next index up he hu =>
      split
      · trivial
      next u hu2 =>
      split
      · split
        · trivial
        · refine finish_sound ((a2.setDown _ fun x hx => ?_).setValue _ _) (by simp; omega)
          rcases List.mem_or_eq_of_mem_set hx with hx | rfl
          · exact (a2 _ u hu2).2 x hx
          · simp [createNode, NHeap.new]; omega
      · trivial
    · trivial
  · split
    · trivial
    · exact finish_sound (hh.setValue _ _) (by simp)

theorem SetKey_sound (newKey : Bytes) (path : List Bytes) : Sound h p (p.SetKey h newKey path) := by
  unfold ParserP.SetKey
  split
  · exact same_sound hh
  split
  · exact same_sound hh
  split
  · trivial
  · exact same_sound hh
  split
  · trivial
  split
  · exact same_sound hh
  simp only
  split
  · trivial
  split
  · trivial
  next he =>
    obtain ⟨a, b⟩ := climbQuiet_closed _ _ _ (hh.setLabel _ _) he
    exact ⟨a, by rw [b]; simp, rfl⟩

theorem Delete_sound (path : List Bytes) : Sound h p (p.Delete h path) := by
  unfold ParserP.Delete
  split
  · exact same_sound hh
  split
  · trivial
  · exact same_sound hh
  split
  · trivial
  next he =>
  obtain ⟨a, b⟩ := deAttach_closed hh he
  split
  · trivial
  · exact ⟨a, by omega, rfl⟩
  · exact finish_sound a (by omega)

theorem AddKeyValue_sound (key newVal : Bytes) (path : List Bytes) : Sound h p (p.AddKeyValue h key newVal path) := by
  unfold ParserP.AddKeyValue
  split
  · exact same_sound hh
  split
  · trivial
  · exact same_sound hh
  simp only
  split
  · split
    · trivial
    split
    · exact same_sound hh
    split
    · exact same_sound hh
    split
    · split
      · trivial
      next he =>
      obtain ⟨a, b, c⟩ := newNodeP_closed hh he
      obtain ⟨a1, a2⟩ := attach_closed a c (Nat.lt_of_lt_of_le hp b)
      split
      · exact ⟨a1, by omega, rfl⟩
      · trivial
    · trivial
  · split
    · trivial
    · exact same_sound hh
    next hw =>
    have hc := walk_lt hh path hp hw
    split
    · trivial
    split
    · exact same_sound hh
    split
    · exact same_sound hh
    split
    · split
      · trivial
      next he =>
      obtain ⟨a, b, c⟩ := newNodeP_closed hh he
      obtain ⟨a1, a2⟩ := attach_closed a c (Nat.lt_of_lt_of_le hc b)
      split
      · trivial
      · exact ⟨a1, by omega, rfl⟩
      · exact finish_sound a1 (by omega)
    · trivial

theorem Add_sound (newVal : Bytes) (path : List Bytes) : Sound h p (p.Add h newVal path) := by
  unfold ParserP.Add
  split
  · exact same_sound hh
  split
  · trivial
  · exact same_sound hh
  split
  · trivial
  · exact same_sound hh
  next hw =>
  have hc := walk_lt hh path hp hw
  split
  · exact same_sound hh
  split
  · trivial
  simp only
  split
  · trivial
  next he =>
  obtain ⟨a, b, c⟩ := newNodeP_closed hh he
  obtain ⟨a1, a2⟩ := attach_closed a c (Nat.lt_of_lt_of_le hc b)
  split
  · split
    · exact ⟨a1, by omega, rfl⟩
    · trivial
  · split
    · trivial
    · exact ⟨a1, by omega, rfl⟩
    · exact finish_sound a1 (by omega)

theorem Insert_sound (index : Int) (newVal : Bytes) (path : List Bytes) : Sound h p (p.Insert h index newVal path) := by
  unfold ParserP.Insert
  split
  · exact same_sound hh
  split
  · trivial
  · exact same_sound hh
  split
  · trivial
  · exact same_sound hh
  next curr hw =>
  have hc := walk_lt hh path hp hw
  split
  · exact same_sound hh
  simp only
  split
  · trivial
  next h1 q he =>
  obtain ⟨a, b, c⟩ := bareNodeP_closed hh he
  have hc1 := Nat.lt_of_lt_of_le hc b
  split
  · trivial
  · exact ⟨a, b, rfl⟩
  next h2 hi =>
  obtain ⟨a2, b2, -⟩ := insert_closed a hc1 hi
  split
  · split
    · split
      · trivial
      · exact ⟨a2, by omega, rfl⟩
      · split
        · trivial
        · exact ⟨a2, by omega, rfl⟩
        next hi2 =>
        obtain ⟨a3, b3, -⟩ := insert_closed a2 (by omega) hi2
        obtain ⟨a4, b4⟩ := attach_closed a3 (q := q) (curr := curr) (by omega) (by omega)
        exact ⟨a4, by omega, rfl⟩
    · have a5 : Closed ((h2.setValue q newVal).addDown curr q) := (a2.setValue _ _).addDown _ (by simp; omega)
      have b5 : ((h2.setValue q newVal).addDown curr q).length = h2.length := by simp
      split
      · trivial
      · exact ⟨a5, by omega, rfl⟩
      · split
        · trivial
        · exact ⟨a5, by omega, rfl⟩
        next hi2 =>
        obtain ⟨a3, b3, -⟩ := insert_closed a5 (by omega) hi2
        refine ⟨a3.setUp _ fun x hx => ?_, by simp; omega, rfl⟩
        cases hx; omega
  · obtain ⟨a4, b4⟩ := attach_closed (a2.setValue q newVal) (q := q) (curr := curr) (by simp; omega) (by simp; omega)
    have b4 : ((h2.setValue q newVal).attach curr q).length = h2.length := by simpa using b4
    split
    · trivial
    · exact ⟨a4, by omega, rfl⟩
    · exact finish_sound a4 (by omega)

end

end Jin.Go
