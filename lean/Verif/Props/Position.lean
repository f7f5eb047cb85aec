import Verif.Props.Bytes
import Verif.Props.Types
/-!
# Props.Position — C88: the position in a BadJSON error
-/

namespace Jin
open Spec
variable {json : Bytes} {path : List Bytes}

/-- A position that the error names is one of the text. -/
def Within (json : Bytes) (e : Err) : Prop := ∀ n, e = .badJSON n → 0 ≤ n ∧ n ≤ json.length

def OutIn {α : Type} (json : Bytes) (r : Out α) : Prop := ∀ e, r = .err e → Within json e
def MutIn (json : Bytes) (r : Mut) : Prop := ∀ j e, r = .done j (some e) → Within json e
def IterIn {σ : Type} (json : Bytes) (r : IterRes σ) : Prop := ∀ s e, r = .done s (some e) → Within json e

/-- No position at all. -/
def NoPos {α : Type} (r : Out α) : Prop := ∀ n, r ≠ .err (.badJSON n)

theorem within_nat {n : Nat} (h : n ≤ json.length) : Within json (.badJSON n) := by
  intro m e; injection e; omega

theorem within_zero : Within json (.badJSON 0) := by intro m e; injection e; omega

theorem NoPos.out {α : Type} {r : Out α} (h : NoPos r) : OutIn json r := by
  rintro e rfl n rfl; exact absurd rfl (h n)

theorem out_ok {α : Type} {a : α} : OutIn json (.ok a) := by rintro e ⟨⟩
theorem out_panic {α : Type} : OutIn (α := α) json .panic := by rintro e ⟨⟩
theorem out_err {α : Type} {e : Err} (h : Within json e) : OutIn (α := α) json (.err e) := by rintro e ⟨⟩; exact h

theorem OutIn.bind {α β : Type} {r : Out α} {f : α → Out β} (h : OutIn json r) (hf : ∀ a, r = .ok a → OutIn json (f a)) :
    OutIn json (r >>= f) := by
  cases r with
  | ok a => exact hf a rfl
  | err e => exact out_err (h e rfl)
  | panic => exact out_panic

theorem OutIn.map {α β : Type} {r : Out α} {f : α → β} (h : OutIn json r) : OutIn json (r.map f) := by
  cases r with
  | ok a => exact out_ok
  | err e => exact out_err (h e rfl)
  | panic => exact out_panic

theorem slice_noPos {b : Bytes} {i j : Int} : NoPos (slice b i j) := by
  intro n h; unfold slice at h; split at h <;> cases h

theorem idx_noPos {b : Bytes} {i : Int} : NoPos (idx b i) := by
  intro n h; unfold idx at h; split at h <;> (try split at h) <;> cases h

theorem replace_noPos {b v : Bytes} {i j : Int} (e : Err) : replace b v i j ≠ .err e := by
  intro h
  unfold replace at h
  cases h1 : slice b 0 i with
  | err e => unfold slice at h1; split at h1 <;> cases h1
  | panic => rw [h1] at h; cases h
  | ok a =>
    rw [h1] at h
    cases h2 : slice b j b.length with
    | err e => unfold slice at h2; split at h2 <;> cases h2
    | panic => rw [h2] at h; cases h
    | ok a => rw [h2] at h; cases h

theorem mut_replace {b v : Bytes} {i j : Int} : MutIn json (Mut.ofOut (replace b v i j)) := by
  intro t e h
  cases h1 : replace b v i j with
  | ok a => rw [h1] at h; cases h
  | err e => exact absurd h1 (replace_noPos e)
  | panic => rw [h1] at h; cases h

theorem mut_ok {j : Bytes} : MutIn json (.done j none) := by rintro j e ⟨⟩
theorem mut_panic : MutIn json .panic := by rintro j e ⟨⟩
theorem mut_err {j : Bytes} {e : Err} (h : Within json e) : MutIn json (.done j (some e)) := by rintro j e ⟨⟩; exact h

theorem MutIn.bind {α : Type} {b : Bytes} {r : Out α} {f : α → Mut} (h : OutIn json r) (hf : ∀ a, r = .ok a → MutIn json (f a)) :
    MutIn json (Mut.bindOut b r f) := by
  cases r with
  | ok a => exact hf a rfl
  | err e => exact mut_err (h e rfl)
  | panic => exact mut_panic

/-! ### core -/

theorem zero_noPos {k i : Nat} {s : ZeroSt} : After (fun _ => True) NoPos (forUp json.length (zeroBody json path k) i s) := by
  refine forUp_inv (P := fun _ _ => True) ?_ (fun _ _ _ _ => trivial) trivial
  intro i s _ _
  unfold zeroBody
  (repeat' split) <;> simp [Step, NoPos]

theorem peek_noPos {k i : Nat} : After (fun _ => True) NoPos (forUp json.length (peekBody json path k) i ()) := by
  refine forUp_inv (P := fun _ _ => True) ?_ (fun _ _ _ _ => trivial) trivial
  intro i s _ _
  unfold peekBody
  (repeat' split) <;> simp [Step, NoPos]

theorem jump_noPos {k i : Nat} {cur : Bytes} {s : JumpSt} : After (fun _ => True) NoPos (forUp json.length (jumpBody json k cur) i s) := by
  refine forUp_inv (P := fun _ _ => True) ?_ (fun _ _ _ _ => trivial) trivial
  intro i s _ _
  unfold jumpBody
  (repeat' split) <;> simp [Step, NoPos]

theorem arr_noPos {k i : Nat} {n : Int} {s : ArrSt} : After (fun _ => True) NoPos (forUp json.length (arrBody json path k n) i s) := by
  refine forUp_inv (P := fun _ _ => True) ?_ (fun _ _ _ _ => trivial) trivial
  intro i s _ _
  unfold arrBody
  have hp := peek_noPos (json := json) (path := path) (k := k) (i := i + 1)
  split
  · simp [Step, NoPos]
  · simp only
    (repeat' split) <;> first | (rename_i hr; rw [hr] at hp; exact hp) | simp [Step, NoPos]

theorem key_noPos {i : Nat} {s : KeySt} : After (fun _ => True) NoPos (forUp json.length (keyBody json path) i s) := by
  refine forUp_inv (P := fun _ _ => True) ?_ (fun _ _ _ _ => trivial) trivial
  intro i s _ _
  unfold keyBody
  have hp := jump_noPos (json := json) (k := s.k) (i := i) (cur := s.cur) (s := ⟨s.level, s.inQuote, none⟩)
  split
  · simp [Step, NoPos]
  · (repeat' split) <;> first | (rename_i hr; rw [hr] at hp; exact hp) | simp [Step, NoPos]

theorem loop_noPos (fuel : Nat) : ∀ s : CoreSt, After (fun _ => True) NoPos (coreLoop json path fuel s) := by
  induction fuel with
  | zero => intro s; trivial
  | succ n ih =>
    intro s
    have hs : After (fun _ => True) NoPos (coreStep json path s) := by
      unfold coreStep
      split
      · split
        · simp [After, NoPos]
        · split
          · have := zero_noPos (json := json) (path := path) (k := s.k) (i := s.offset + 1) (s := ⟨s.offset + 1, s.brace, s.cur⟩)
            split <;> rename_i hr <;> rw [hr] at this
            · exact this
            · trivial
          · rename_i n _ _
            have := arr_noPos (json := json) (path := path) (k := s.k) (i := s.offset) (n := n) (s := ⟨0, false, false, 0, s.offset, s.brace, s.cur⟩)
            split <;> rename_i hr <;> rw [hr] at this
            · exact this
            · split <;> simp [After, NoPos]
      · have := key_noPos (json := json) (path := path) (i := s.offset) (s := ⟨s.k, s.k, false, false, 0, 0, s.offset, s.brace, s.cur, s.keyStart⟩)
        split <;> rename_i hr <;> rw [hr] at this
        · exact this
        · split <;> simp [After, NoPos]
    unfold coreLoop
    split
    · cases hr : coreStep json path s with
      | ret r => rw [hr] at hs; exact hs
      | done t => exact ih _
    · trivial

theorem extent_out {ks : Int} {off : Nat} {c : UInt8} (h : off ≤ json.length) : OutIn json (extent json ks off c) := by
  have h1 : ∀ s, After (fun _ => True) NoPos (forUp json.length (braceBody json ks off) off s) := by
    intro s
    refine forUp_inv (P := fun _ _ => True) ?_ (fun _ _ _ _ => trivial) trivial
    intro i s _ _
    unfold braceBody
    (repeat' split) <;> simp [Step, NoPos]
  have h2 : After (fun _ => True) NoPos (forUp json.length (stringBody json ks off) (off + 1) ()) := by
    refine forUp_inv (P := fun _ _ => True) ?_ (fun _ _ _ _ => trivial) trivial
    intro i s _ _
    unfold stringBody
    (repeat' split) <;> simp [Step, NoPos]
  have h3 : After (fun _ => True) NoPos (forUp json.length (plainBody json ks off) off ()) := by
    refine forUp_inv (P := fun _ _ => True) ?_ (fun _ _ _ _ => trivial) trivial
    intro i s _ _
    unfold plainBody
    (repeat' split) <;> simp [Step, NoPos]
  unfold extent
  simp only
  split
  · rename_i heq
    split at heq
    · have := h1 (0, false)
      cases hz : forUp json.length (braceBody json ks off) off (0, false) with
      | ret r => rw [hz] at this heq; cases heq; exact this.out
      | done u => rw [hz] at heq; cases heq
    · split at heq
      · rw [heq] at h2; exact h2.out
      · rw [heq] at h3; exact h3.out
  · exact out_err (within_nat h)

theorem core_out {js : Bool} : OutIn json (core json js path) := by
  unfold core
  split
  · exact out_err within_zero
  · cases path with
    | nil => exact out_panic
    | cons p ps =>
      simp only
      cases skipSpaces json 0 with
      | none => exact out_panic
      | some off =>
        simp only
        cases json[off]? with
        | none => exact out_panic
        | some brace =>
          simp only
          have := loop_noPos (json := json) (path := p :: ps) (p :: ps).length ⟨0, off, brace, p, -1⟩
          cases hr : coreLoop json (p :: ps) (p :: ps).length ⟨0, off, brace, p, -1⟩ with
          | ret r => rw [hr] at this; exact this.out
          | done t =>
            simp only
            unfold coreTail
            split
            · exact out_err within_zero
            · split
              · exact out_panic
              · split
                · exact out_ok
                · split
                  · exact out_panic
                  · rename_i hc
                    exact extent_out (Nat.le_of_lt (lt_of_getElem? hc))

/-! ### The functions -/

theorem get_out : OutIn json (Get json path) := by
  unfold Get
  split
  · exact out_ok
  · exact core_out.bind fun _ _ => slice_noPos.out

theorem getStartEnd_out : OutIn json (getStartEnd json path) := by
  unfold getStartEnd
  split
  · exact out_err within_zero
  · split
    · exact core_out.bind fun _ _ => out_ok
    · split
      · exact out_panic
      · split
        · exact out_panic
        · exact out_ok

theorem valueStart_out : OutIn json (valueStart json path) := by
  unfold valueStart
  split
  · split
    · exact out_panic
    · exact out_ok
  · exact core_out.bind fun _ _ => out_ok

/-- A `BadJSON` error of `Get` or of a getter for a single value names a position of the text. -/
theorem C88_get (json : Bytes) (path : List Bytes) : OutIn json (Get json path) ∧ OutIn json (GetInt json path) ∧
    OutIn json (GetBool json path) ∧ ∀ (F : Type) (fl : FloatLib F), OutIn json (GetFloat fl json path) := by
  refine ⟨get_out, get_out.bind fun v _ => ?_, get_out.bind fun v _ => ?_, fun F fl => get_out.bind fun v _ => ?_⟩
  · split
    · exact out_ok
    · exact out_err (by intro n h; cases h)
  · split
    · exact out_ok
    · split
      · exact out_ok
      · exact out_err (by intro n h; cases h)
  · split
    · exact out_ok
    · exact out_err (by intro n h; cases h)

theorem kvRun_out {body : Bytes → Nat → KvSt → Ctl KvSt Unit} : OutIn json (kvRun body json path) := by
  unfold kvRun
  split
  · exact out_err (by intro n h; cases h)
  · refine valueStart_out.bind fun start _ => idx_noPos.out.bind fun c _ => ?_
    split
    · split
      · exact out_panic
      · exact out_ok
    · exact out_err (by intro n h; cases h)

/-- The same for the type tests, `Length` and the readers of keys and values. -/
theorem C88_inspect (json : Bytes) (path : List Bytes) : OutIn json (Length json path) ∧ OutIn json (IsEmpty json path) ∧
    OutIn json (IsObject json path) ∧ OutIn json (IsArray json path) ∧ OutIn json (IsValue json path) ∧
    (∀ isFloat, OutIn json (GetType isFloat json path)) ∧
    OutIn json (GetKeys json path) ∧ OutIn json (GetValues json path) ∧ OutIn json (GetKeysValues json path) := by
  have tc : ∀ control eq, OutIn json (typeControlCore json control eq path) := by
    intro control eq
    unfold typeControlCore
    split
    · exact out_err within_zero
    · refine valueStart_out.bind fun start _ => ?_
      split
      · exact out_ok
      · exact idx_noPos.out.bind fun _ _ => out_ok
  refine ⟨?_, ?_, (tc _ _).map, (tc _ _).map, (tc _ _).map, fun isFloat => ?_, kvRun_out.map, kvRun_out.map, kvRun_out.map⟩
  · unfold Length
    split
    · exact out_ok
    · refine getStartEnd_out.bind fun r _ => ?_
      simp only
      split
      · exact out_panic
      · (repeat' split) <;> exact out_ok
  · unfold IsEmpty
    split
    · exact out_err within_zero
    · have he : OutIn json (emptySpan json path) := by
        unfold emptySpan
        split
        · split
          · exact out_ok
          · exact out_panic
        · exact core_out.map
      refine he.bind fun r _ => idx_noPos.out.bind fun a _ => idx_noPos.out.bind fun z hz => ?_
      split
      · split
        · refine out_err ?_
          intro n e
          injection e with e
          subst e
          unfold idx at hz
          split at hz
          · rename_i hc
            unfold at? at hc
            split at hc
            · cases hc
            · have := lt_of_getElem? hc
              omega
          · cases hz
        · (repeat' split) <;> exact out_ok
      · exact out_err (by intro n h; cases h)
  · unfold GetType
    refine (tc _ _).bind fun r _ => idx_noPos.out.bind fun c _ => ?_
    split
    · exact out_ok
    · split
      · exact out_ok
      · split
        · exact out_ok
        · refine get_out.bind fun v _ => ?_
          (repeat' split) <;> exact out_ok

theorem containerSpan_out {o c : UInt8} {e : Err} (he : Within json e) : OutIn json (containerSpan json o c e path) := by
  unfold containerSpan
  split
  · unfold rootSpan
    (repeat' split) <;> first
      | exact out_panic
      | exact out_err he
      | exact out_ok
      | (simp only [Out.bind_ok]; exact out_ok)
      | exact out_err (within_nat (Nat.le_of_lt (lt_of_getElem? (by assumption))))
  · exact core_out.bind fun _ _ => out_ok

theorem brackets_out {o c : UInt8} {i j : Nat} : OutIn json (bracketsAt json o c i j) := by
  unfold bracketsAt
  refine idx_noPos.out.bind fun a _ => ?_
  split
  · exact idx_noPos.out.bind fun _ _ => out_ok
  · exact out_ok

theorem widen_out {i j : Nat} : OutIn json (widen json i j) := by
  unfold widen
  exact idx_noPos.out.bind fun _ _ => idx_noPos.out.bind fun _ _ => out_ok

theorem replaceValue_in {v : Bytes} {i j : Nat} : MutIn json (replaceValue json v i j) := by
  unfold replaceValue
  refine MutIn.bind ?_ fun q _ => ?_
  · unfold quotedAt
    refine idx_noPos.out.bind fun a _ => ?_
    split
    · exact idx_noPos.out.bind fun _ _ => out_ok
    · exact out_ok
  · split <;> exact mut_replace

theorem addKeyValue_in {key v : Bytes} : MutIn json (addKeyValue json key v path) := by
  unfold addKeyValue
  split
  · exact mut_err within_zero
  · refine MutIn.bind (containerSpan_out (by intro n h; cases h)) fun r _ => MutIn.bind brackets_out fun b _ => ?_
    split
    · split
      · exact mut_replace
      · have hc := core_out (json := json) (path := path ++ [key]) (js := false)
        split
        · exact mut_panic
        · exact mut_err (by intro n h; cases h)
        · rename_i e he
          split
          · exact mut_replace
          · exact mut_err (hc e he)
    · exact mut_err (by intro n h; cases h)

/-- The same for the mutators. -/
theorem C88_mutators (json v key : Bytes) (vo : Option Bytes) (i : Int) (path : List Bytes) :
    MutIn json (Set json v path) ∧ MutIn json (SetKey json key path) ∧ MutIn json (Add json v path) ∧
    MutIn json (AddKeyValue json key vo path) ∧ MutIn json (Insert json i v path) ∧ MutIn json (Delete json path) ∧
    MutIn json (Store json key vo path) := by
  have addkv : MutIn json (AddKeyValue json key vo path) := by
    unfold AddKeyValue
    split <;> exact addKeyValue_in
  refine ⟨?_, ?_, ?_, addkv, ?_, ?_, ?_⟩
  · unfold Set
    split
    · exact mut_err (by intro n h; cases h)
    · exact MutIn.bind core_out fun l _ => replaceValue_in
  · unfold SetKey
    split
    · exact mut_err (by intro n h; cases h)
    · split
      · exact mut_err (by intro n h; cases h)
      · rename_i hlen
        have hp : path ≠ [] := by rintro rfl; exact hlen rfl
        have hc := core_out (json := json) (path := path.dropLast ++ [key]) (js := false)
        split
        · exact mut_panic
        · exact mut_err within_zero
        · rename_i e he
          split
          · refine MutIn.bind core_out fun l hl => ?_
            split
            · exact mut_panic
            · rename_i hk
              have hb : After (fun _ => True) (MutIn json) (forUp l.start (setKeyBody json key l.keyStart.toNat) l.keyStart.toNat ()) := by
                refine forUp_inv (P := fun _ _ => True) ?_ (fun _ _ _ _ => trivial) trivial
                intro i s _ _
                unfold setKeyBody
                (repeat' split) <;> first | trivial | exact mut_panic | exact mut_replace
              split
              · rename_i hr
                rw [hr] at hb
                exact hb
              · refine mut_err ?_
                rcases (core_shape hp hl).2 with h | ⟨n, q, h1, -, -, -, h2⟩
                · omega
                · rw [h1]; exact within_nat (by omega)
          · exact mut_err (hc e he)
  · unfold Add
    split
    · exact mut_err within_zero
    · refine MutIn.bind (containerSpan_out (by intro n h; cases h)) fun r _ => MutIn.bind brackets_out fun b _ => ?_
      split
      · split <;> exact mut_replace
      · exact mut_err (by intro n h; cases h)
  · unfold Insert
    refine MutIn.bind (containerSpan_out (by intro n h; cases h)) fun r _ => MutIn.bind brackets_out fun b _ => ?_
    split
    · exact mut_err (by intro n h; cases h)
    · refine MutIn.bind core_out fun l hl => MutIn.bind widen_out fun r hr => ?_
      have hs := spot_lt (core_shape (by simp) hl).1
      have hw := widen_done hr
      simp only
      refine MutIn.bind idx_noPos.out fun a _ => MutIn.bind idx_noPos.out fun z _ => ?_
      split
      · exact mut_replace
      · split
        · exact mut_replace
        · split
          · exact mut_replace
          · exact mut_err (within_nat (by omega))
  · unfold Delete
    split
    · exact mut_err (by intro n h; cases h)
    · rename_i hlen
      have hp : path ≠ [] := by rintro rfl; exact hlen rfl
      refine MutIn.bind core_out fun l hl => ?_
      refine MutIn.bind widen_out fun r hr => ?_
      have hs := spot_lt (core_shape hp hl).1
      have hw := widen_done hr
      have hst : (if l.keyStart == -1 then l.start else (l.keyStart - 1).toNat) ≤ json.length := by
        split
        · omega
        · rcases (core_shape hp hl).2 with h | ⟨n, q, h1, -, -, -, h2⟩ <;> omega
      simp only
      refine MutIn.bind idx_noPos.out fun a _ => MutIn.bind idx_noPos.out fun z _ => ?_
      split
      · exact mut_replace
      · split
        · exact mut_replace
        · split
          · exact mut_replace
          · exact mut_err (within_nat (by omega))
  · unfold Store
    have hc := core_out (json := json) (path := path ++ [key]) (js := false)
    split
    · exact mut_panic
    · rename_i e he
      split
      · exact addkv
      · exact mut_err (hc e he)
    · exact replaceValue_in

theorem iter_ok {σ : Type} {u : σ} : IterIn json (.done u none) := by rintro s e ⟨⟩
theorem iter_panic {σ : Type} : IterIn (σ := σ) json .panic := by rintro s e ⟨⟩
theorem iter_err {σ : Type} {u : σ} {e : Err} (h : Within json e) : IterIn json (.done u (some e)) := by rintro s e ⟨⟩; exact h

/-- The same for the iterators, when the errors of the callback keep it. -/
theorem C88_iterate (σ : Type) (json : Bytes) (path : List Bytes) (u : σ) :
    (∀ cb : σ → Bytes → Cb σ, (∀ s v s' b e, cb s v = .ret s' b (some e) → Within json e) → IterIn json (IterateArray json cb path u)) ∧
    (∀ cb : σ → Bytes → Bytes → Cb σ, (∀ s k v s' b e, cb s k v = .ret s' b (some e) → Within json e) →
      IterIn json (IterateKeyValue json cb path u)) := by
  refine ⟨fun cb hcb => ?_, fun cb hcb => ?_⟩
  · unfold IterateArray
    split
    · exact iter_err within_zero
    · split
      · split
        · exact iter_ok
        · exact iter_err within_zero
      · rename_i hl _
        have hs : OutIn json (if path.length == 0 then
            match skipSpaces json 0 with
            | none => .err (.badJSON ((json.length : Int) - 1))
            | some s => .ok s
          else (core json true path).map Loc.start) := by
          split
          · split
            · refine out_err ?_
              intro n e; injection e; omega
            · exact out_ok
          · exact core_out.map
        simp only
        split
        · exact iter_panic
        · rename_i e he
          exact iter_err (hs e he)
        · split
          · exact iter_panic
          · split
            · exact iter_err (by intro n h; cases h)
            · rename_i start _ _ c hc _
              have hb : After (fun t : IaSt σ => t.start ≤ json.length) (IterIn json)
                  (forUp json.length (iaBody json cb) (start + 1) ⟨start + 1, false, 0, u⟩) := by
                refine forUp_inv (P := fun _ (t : IaSt σ) => t.start ≤ json.length) ?_ (fun _ _ _ h => h) (lt_of_getElem? hc)
                intro i s hi hs
                unfold iaBody
                split
                · exact iter_panic
                · split
                  · exact hs
                  · split
                    · split
                      · split <;> exact hs
                      · exact hs
                    · split
                      · exact hs
                      · split
                        · exact hs
                        · split
                          · split
                            · exact iter_ok
                            · split
                              · split
                                · split
                                  · rename_i u' b e he
                                    cases e with
                                    | none => exact iter_ok
                                    | some e => exact iter_err (hcb _ _ _ _ _ he)
                                  · exact iter_panic
                                · exact iter_panic
                              · exact hs
                          · split
                            · split
                              · split
                                · rename_i he; exact iter_err (hcb _ _ _ _ _ he)
                                · exact iter_ok
                                · exact hi
                                · exact iter_panic
                              · exact iter_panic
                            · exact hs
              split
              · rename_i hr
                rw [hr] at hb; exact hb
              · rename_i hr
                rw [hr] at hb; exact iter_err (within_nat hb)
  · unfold IterateKeyValue
    split
    · exact iter_err (by intro n h; cases h)
    · have hv := valueStart_out (json := json) (path := path)
      split
      · exact iter_panic
      · rename_i e he
        exact iter_err (hv e he)
      · split
        · exact iter_panic
        · split
          · have hb : ∀ i s, After (fun _ : IkSt σ => True) (IterIn json) (forUp json.length (ikBody json cb) i s) := by
              intro i s
              refine forUp_inv (P := fun _ _ => True) ?_ (fun _ _ _ _ => trivial) trivial
              intro i s _ _
              unfold ikBody
              simp only
              (repeat' split) <;> first | trivial | exact iter_panic | exact iter_ok | (rename_i he; exact iter_err (hcb _ _ _ _ _ _ he))
            split
            · rename_i hr
              exact (hr ▸ hb _ _ : After (fun _ : IkSt σ => True) (IterIn json) (.ret _))
            · exact iter_ok
          · exact iter_err (by intro n h; cases h)

theorem toOut_out {σ α : Type} {r : IterRes σ} {f : σ → α} (h : IterIn json r) : OutIn json (r.toOut f) := by
  unfold IterRes.toOut
  split
  · exact out_panic
  · exact out_err (h _ _ rfl)
  · exact out_ok

theorem NoPos.bind {α β : Type} {r : Out α} {f : α → Out β} (h : NoPos r) (hf : ∀ a, NoPos (f a)) : NoPos (r >>= f) := by
  cases r with
  | ok a => exact hf a
  | err e => intro n hn; injection hn with hn; subst hn; exact absurd rfl (h n)
  | panic => intro n hn; cases hn

theorem clean_noPos {b : Bytes} : NoPos (cleanValueString b) := by
  unfold cleanValueString
  split
  · intro n h; cases h
  · refine NoPos.bind idx_noPos fun a => ?_
    split
    · refine NoPos.bind idx_noPos fun z => ?_
      split <;> exact slice_noPos
    · exact slice_noPos

theorem split_out {α : Type} {conv last : Bytes → Out α} {val : Bytes} (hc : ∀ e, NoPos (conv e)) (hl : ∀ e, NoPos (last e)) :
    NoPos (splitArray conv last val) := by
  have hb : After (fun _ : SplitSt α => True) NoPos (forUp val.length (splitBody conv last val) 0 ⟨1, false, 0, []⟩) := by
    refine forUp_inv (P := fun _ _ => True) ?_ (fun _ _ _ _ => trivial) trivial
    intro i s _ _
    have key : ∀ {f : Bytes → Out α} {st : Nat} {e : Err}, (∀ b, NoPos (f b)) → (slice val st i >>= f) = .err e → NoPos (.err e : Out (List α)) := by
      intro f st e hf h n hn
      injection hn with hn
      subst hn
      cases hs : slice val st i with
      | ok b => rw [hs] at h; exact hf b n h
      | err e => rw [hs] at h; injection h with h; subst h; exact slice_noPos n hs
      | panic => rw [hs] at h; cases h
    unfold splitBody
    split
    · intro n h; cases h
    · split
      · trivial
      · split
        · trivial
        · split
          · trivial
          · simp only
            (repeat' split) <;> first
              | trivial
              | (rename_i h; exact key hl h)
              | (rename_i h; exact key hc h)
              | (intro n h; cases h)
  unfold splitArray
  split
  · rename_i hr; rw [hr] at hb; exact hb
  · intro n h; cases h

/-- The same for the array getters, `GetMap`, `GetAll` and `GetAllMap`. -/
theorem C88_collect (json : Bytes) (keys path : List Bytes) : OutIn json (GetStringArray json path) ∧ OutIn json (GetIntArray json path) ∧
    OutIn json (GetBoolArray json path) ∧ (∀ (F : Type) (fl : FloatLib F), OutIn json (GetFloatArray fl json path)) ∧
    OutIn json (GetMap json path) ∧ OutIn json (GetAll json keys path) ∧ OutIn json (GetAllMap json keys path) := by
  have e1 : ∀ {α : Type} {e : Err}, (∀ n, e ≠ .badJSON n) → OutIn (α := α) json (.err e) := fun h => out_err fun n hn => absurd hn (h n)
  have arr : ∀ {α : Type} {conv last : Bytes → Out α} {val : Bytes}, (∀ e, NoPos (conv e)) → (∀ e, NoPos (last e)) →
      OutIn json (splitArray conv last val) := fun h1 h2 => (split_out h1 h2).out
  refine ⟨?_, ?_, ?_, fun F fl => ?_, ?_, ?_, ?_⟩
  · refine get_out.bind fun v _ => ?_
    split
    · exact e1 nofun
    · split
      · refine OutIn.bind ?_ fun a _ => ?_
        · unfold ParseArray
          split
          · exact out_ok
          · split
            · split
              · exact out_ok
              · exact (arr (fun _ => clean_noPos) fun _ => clean_noPos).map
            · exact out_ok
        · split
          · exact e1 nofun
          · exact out_ok
      · exact e1 nofun
  · have hc : ∀ e, NoPos (convInt e) := fun e => clean_noPos.bind fun a => by
      split <;> intro n h <;> cases h
    refine get_out.bind fun v _ => ?_
    split
    · exact e1 nofun
    · split
      · exact arr hc hc
      · exact e1 nofun
  · have hc : ∀ e, NoPos (convBool e) := fun e => clean_noPos.bind fun a => by
      split
      · intro n h; cases h
      · split <;> intro n h <;> cases h
    have hl : ∀ e, NoPos (convBoolLast e) := fun e => clean_noPos.bind fun a => by
      split
      · intro n h; cases h
      · split
        · intro n h; cases h
        · exact clean_noPos.bind fun a => by intro n h; cases h
    refine get_out.bind fun v _ => ?_
    split
    · exact e1 nofun
    · split
      · exact arr hc hl
      · exact e1 nofun
  · have hc : ∀ e, NoPos (convFloat fl e) := fun e => clean_noPos.bind fun a => by
      split <;> intro n h <;> cases h
    refine get_out.bind fun v _ => ?_
    split
    · exact e1 nofun
    · split
      · exact arr hc hc
      · exact e1 nofun
  · unfold GetMap
    split
    · exact out_ok
    · refine getStartEnd_out.bind fun r _ => ?_
      simp only
      refine idx_noPos.out.bind fun a ha => ?_
      have hst : Within json (.badJSON r.1) := by
        unfold idx at ha
        split at ha
        · rename_i hc
          unfold at? at hc
          split at hc
          · cases hc
          · have := lt_of_getElem? hc
            exact within_nat (by omega)
        · cases ha
      split
      · refine idx_noPos.out.bind fun z _ => ?_
        split
        · exact toOut_out ((C88_iterate _ json path _).2 _ nofun)
        · exact out_err hst
      · split
        · refine idx_noPos.out.bind fun z _ => ?_
          split
          · exact toOut_out ((C88_iterate _ json path _).1 _ nofun)
          · exact out_err hst
        · exact out_err hst
  · induction keys with
    | nil => rw [GetAll]; exact out_ok
    | cons k ks ih =>
      rw [GetAll]
      exact get_out.bind fun _ _ => ih.bind fun _ _ => out_ok
  · have : ∀ m, OutIn json (getAllMapLoop json path keys m) := by
      induction keys with
      | nil => intro m; rw [getAllMapLoop]; exact out_ok
      | cons k ks ih => intro m; rw [getAllMapLoop]; exact get_out.bind fun _ _ => ih _
    exact this []

/-- Errors that name a position. -/
example : Get (str "{\"a\":[1,2") [str "a", str "1"] = .err (.badJSON 8) ∧
    SetKey (str "{:1}") (str "k") [str ""] = .done (str "{:1}") (some (.badJSON 0)) ∧
    IsEmpty (str "[}") [] = .err (.badJSON 1) := by
  refine ⟨?_, ?_, ?_⟩ <;> decide +kernel

end Jin
