import Verif.Model.IterMem
import Verif.Proof.ByteMem
import Verif.Proof.Mem
/-!
# Proof.IterMem — the iterators in memory and on plain bytes, side by side
-/

namespace Jin
variable {h : BHeap} {json : BSlice}

/-- `w` is a part of `json` that shares its memory, with all the room there is behind it. -/
def Window (json w : BSlice) : Prop :=
  w.blk = json.blk ∧ json.off ≤ w.off ∧ w.off + w.len ≤ json.off + json.len ∧ w.off + w.cap = json.off + json.cap

theorem Window.rfl {s : BSlice} : Window s s := ⟨Eq.refl _, Nat.le_refl _, Nat.le_refl _, Eq.refl _⟩

theorem Window.trans {a b c : BSlice} (h1 : Window a b) (h2 : Window b c) : Window a c := by
  obtain ⟨a1, a2, a3, a4⟩ := h1
  obtain ⟨b1, b2, b3, b4⟩ := h2
  exact ⟨b1.trans a1, by omega, by omega, by omega⟩

theorem Window.ok {w : BSlice} (h1 : Window json w) (hj : json.ok h) : w.ok h := by
  obtain ⟨a1, a2, a3, a4⟩ := h1
  obtain ⟨b1, b2⟩ := hj
  exact ⟨by omega, by rw [a1]; omega⟩

theorem sub_window {lo hi : Nat} (hj : json.ok h) (h1 : lo ≤ hi) (h2 : hi ≤ json.len) :
    Window json ⟨json.blk, json.off + lo, hi - lo, json.cap - lo⟩ := by
  have := hj.1
  exact ⟨rfl, by simp only; omega, by simp only; omega, by simp only; omega⟩

/-- A slice that a step in memory gives, and the bytes that the step gives on plain bytes. -/
def OutRel (h : BHeap) (json : BSlice) : Out Bytes → Option BSlice → Prop
  | .ok v, some w => Window json w ∧ h.read w = v
  | .ok _, none => False
  | _, some _ => False
  | _, none => True

theorem sub_rel {lo hi : Int} (hj : json.ok h) (h2 : hi ≤ json.len) : OutRel h json (slice (h.read json) lo hi) (json.sub lo hi) := by
  have hl := bread_length hj
  have hc := hj.1
  by_cases hr : 0 ≤ lo ∧ lo ≤ hi
  · obtain ⟨a, rfl⟩ := Int.eq_ofNat_of_zero_le hr.1
    obtain ⟨b, rfl⟩ := Int.eq_ofNat_of_zero_le (Int.le_trans hr.1 hr.2)
    have e1 : slice (h.read json) ((a : Nat) : Int) ((b : Nat) : Int) = _ := slice_in (i := a) (j := b) (by omega) (by omega)
    have e2 : json.sub ((a : Nat) : Int) ((b : Nat) : Int) = _ := sub_spec (lo := a) (hi := b) (by omega) (by omega)
    show OutRel h json (slice (h.read json) ((a : Nat) : Int) ((b : Nat) : Int)) (json.sub ((a : Nat) : Int) ((b : Nat) : Int))
    rw [e1, e2]
    exact ⟨sub_window hj (by omega) (by omega), sub_read (by omega) (by omega)⟩
  · unfold slice BSlice.sub
    rw [if_neg (fun h => hr ⟨h.1, h.2.1⟩), if_neg (fun h => hr ⟨h.1, h.2.1⟩)]
    trivial

theorem OutRel.step {x : Out Bytes} {y : Option BSlice} {f : Bytes → Out Bytes} {g : BSlice → Option BSlice} (hx : OutRel h json x y)
    (hf : ∀ w, Window json w → OutRel h w (f (h.read w)) (g w)) : OutRel h json (x >>= f) (y.bind g) := by
  cases x with
  | ok v =>
    cases y with
    | none => exact hx.elim
    | some w =>
      obtain ⟨h1, h2⟩ := hx
      have := hf w h1
      rw [h2] at this
      show OutRel h json (f v) (g w)
      cases hv : f v <;> cases hg : g w <;> rw [hv, hg] at this <;> try exact this
      exact ⟨h1.trans this.1, this.2⟩
  | err e =>
    cases y with
    | none => trivial
    | some w => exact hx.elim
  | panic =>
    cases y with
    | none => trivial
    | some w => exact hx.elim

theorem clean_rel {w : BSlice} (hw : w.ok h) : OutRel h w (cleanValue (h.read w)) (cleanValueMem h w) := by
  have hl := bread_length hw
  unfold cleanValue cleanValueMem
  rw [hl]
  split
  · exact ⟨.rfl, rfl⟩
  · rename_i h0
    have h0 : 0 < w.len := by simp at h0; omega
    simp only
    have hs : (firstNS (h.read w) 0 (w.len - 1)).getD (w.len - 1) < w.len := by
      cases hx : firstNS (h.read w) 0 (w.len - 1) with
      | none => simp only [Option.getD_none]; omega
      | some j => have := firstNS_le hx; simp only [Option.getD_some]; omega
    generalize (firstNS (h.read w) 0 (w.len - 1)).getD (w.len - 1) = a at hs
    have ht : (lastNS (h.read w) (a + 1) w.len).getD a < w.len := by
      cases hx : lastNS (h.read w) (a + 1) w.len with
      | none => exact hs
      | some j => have := lastNS_lt hx; simp only [Option.getD_some]; omega
    generalize (lastNS (h.read w) (a + 1) w.len).getD a = b at ht
    have ha : (h.read w)[a]? = some ((h.read w)[a]'(by omega)) := List.getElem?_eq_getElem (by omega)
    have hb : (h.read w)[b]? = some ((h.read w)[b]'(by omega)) := List.getElem?_eq_getElem (by omega)
    unfold unquoteSlice
    rw [idx_eq, idx_eq, ha, hb]
    simp only [Out.bind_ok]
    by_cases hqa : ((h.read w)[a] == 34) = true
    · rw [if_pos hqa]
      by_cases hqb : ((h.read w)[b] == 34) = true
      · rw [if_pos hqb, if_pos (by simp [hqa, hqb])]
        exact sub_rel hw (by omega)
      · rw [if_neg hqb, if_neg (by simp [hqb])]
        exact sub_rel hw (by omega)
    · rw [if_neg hqa, if_neg (by simp [hqa])]
      exact sub_rel hw (by omega)

theorem elem_rel {a i : Nat} (hj : json.ok h) (hi : i ≤ json.len) :
    OutRel h json (slice (h.read json) a i >>= cleanValue) ((json.sub a i).bind (cleanValueMem h)) :=
  (sub_rel hj (by omega)).step fun _ hw => clean_rel (hw.ok hj)

theorem value_rel {a b : Nat} (hj : json.ok h) (hb : b < json.len) : OutRel h json (ikValue (h.read json) a b) (ikValueMem h json a b) := by
  have hl := bread_length hj
  unfold ikValue ikValueMem
  rw [idx_eq, idx_eq]
  cases (h.read json)[a]? with
  | none => trivial
  | some c =>
    simp only [Out.bind_ok]
    split
    · cases (h.read json)[b]? with
      | none => trivial
      | some d =>
        simp only [Out.bind_ok]
        split
        · exact sub_rel hj (by omega)
        · exact sub_rel hj (by omega)
    · exact sub_rel hj (by omega)

variable {σ τ : Type} {R : BHeap × σ → τ → Prop} {doc : Bytes}

/-- The states keep the document: the slice is one Go can have, and its bytes are `doc`. -/
def Holds (R : BHeap × σ → τ → Prop) (json : BSlice) (doc : Bytes) : Prop := ∀ u t, R u t → json.ok u.1 ∧ u.1.read json = doc

theorem iterateArrayMem_sim (hR : Holds R json doc) {c1 : BHeap × σ → BSlice → Cb (BHeap × σ)} {c2 : τ → Bytes → Cb τ}
    (hc : ∀ u t w, R u t → Window json w → CbRel R (c1 u w) (c2 t (u.1.read w))) (path : List Bytes) {u : BHeap × σ} {t : τ} (h : R u t) :
    IterRel R (IterateArrayMem json c1 path u) (IterateArray doc c2 path t) := by
  obtain ⟨hj, hd⟩ := hR u t h
  have hl := bread_length hj
  rw [hd] at hl
  have step : ∀ i (s : IaSt (BHeap × σ)) (t : IaSt τ), (s.start = t.start ∧ s.inQuote = t.inQuote ∧ s.level = t.level ∧ R s.user t.user) →
      CtlRel (fun (s : IaSt (BHeap × σ)) (t : IaSt τ) => s.start = t.start ∧ s.inQuote = t.inQuote ∧ s.level = t.level ∧ R s.user t.user) (IterRel R)
        (iaBodyMem json c1 i s) (iaBody doc c2 i t) := by
    rintro i ⟨s1, s2, s3, s4⟩ ⟨t1, t2, t3, t4⟩ ⟨h1, h2, h3, h4⟩
    simp only at h1 h2 h3 h4
    subst h1 h2 h3
    obtain ⟨hj', hd'⟩ := hR s4 t4 h4
    unfold iaBodyMem iaBody
    simp only [hd']
    cases hi : doc[i]? with
    | none => trivial
    | some c =>
      have hi' := lt_of_getElem? hi
      have he := elem_rel (h := s4.1) (a := s1) (i := i) hj' (by omega)
      rw [hd'] at he
      simp only
      split
      · exact ⟨rfl, rfl, rfl, h4⟩
      split
      · split
        · cases quoteScan1 doc i i <;> exact ⟨rfl, rfl, rfl, h4⟩
        · exact ⟨rfl, rfl, rfl, h4⟩
      split
      · exact ⟨rfl, rfl, rfl, h4⟩
      split
      · exact ⟨rfl, rfl, rfl, h4⟩
      split
      · split
        · exact ⟨h4, rfl⟩
        split
        · cases hv : slice doc s1 i >>= cleanValue <;> cases hw : (json.sub s1 i).bind (cleanValueMem s4.1) <;> rw [hv, hw] at he <;>
            first | exact he.elim | trivial | skip
          obtain ⟨w1, rfl⟩ := he
          rename_i w
          have := hc s4 t4 w h4 w1
          simp only
          cases e1 : c1 s4 w <;> cases e2 : c2 t4 (s4.1.read w) <;> rw [e1, e2] at this <;> try exact this.elim
          · exact ⟨this.1, this.2.2⟩
          · trivial
        · exact ⟨rfl, rfl, rfl, h4⟩
      split
      · cases hv : slice doc s1 i >>= cleanValue <;> cases hw : (json.sub s1 i).bind (cleanValueMem s4.1) <;> rw [hv, hw] at he <;>
          first | exact he.elim | trivial | skip
        obtain ⟨w1, rfl⟩ := he
        rename_i w
        have := hc s4 t4 w h4 w1
        simp only
        cases e1 : c1 s4 w with
        | panic => cases e2 : c2 t4 (s4.1.read w) <;> rw [e1, e2] at this <;> first | exact this.elim | trivial
        | ret s b e =>
          cases e2 : c2 t4 (s4.1.read w) <;> rw [e1, e2] at this <;> try exact this.elim
          obtain ⟨h5, rfl, rfl⟩ := this
          cases e with
          | some e => exact ⟨h5, rfl⟩
          | none =>
            cases b with
            | false => exact ⟨h5, rfl⟩
            | true => exact ⟨rfl, rfl, rfl, h5⟩
      · exact ⟨rfl, rfl, rfl, h4⟩
  unfold IterateArrayMem IterateArray
  simp only [hd, hl]
  split
  · exact ⟨h, rfl⟩
  split
  · split
    · exact ⟨h, rfl⟩
    · exact ⟨h, rfl⟩
  · generalize (if (path.length == 0) = true then _ else _ : Out Nat) = st
    cases st with
    | panic => trivial
    | err e => exact ⟨h, rfl⟩
    | ok start =>
      simp only
      cases doc[start]? with
      | none => trivial
      | some c =>
        simp only
        split
        · exact ⟨h, rfl⟩
        · have := forUp_sim (hi := json.len) step (i := start + 1) (s := ⟨start + 1, false, 0, u⟩) (t := ⟨start + 1, false, 0, t⟩) ⟨rfl, rfl, rfl, h⟩
          cases e1 : forUp json.len (iaBodyMem json c1) (start + 1) ⟨start + 1, false, 0, u⟩ <;>
            cases e2 : forUp json.len (iaBody doc c2) (start + 1) ⟨start + 1, false, 0, t⟩ <;>
            rw [e1, e2] at this <;> try exact this.elim
          · obtain ⟨h1, h2, h3, h4⟩ := this
            exact ⟨h4, by rw [h1]⟩
          · exact this

/-- A key slice: a part of the document, or nil before the first colon. -/
def KeyWindow (json k : BSlice) : Prop := Window json k ∨ k = .nil

/-- The states of the member loop: the key is a slice that reads the key's bytes. -/
structure IkMemRel (R : BHeap × σ → τ → Prop) (json : BSlice) (doc : Bytes) (s : IkMem σ) (t : IkSt τ) : Prop where
  start : s.start = t.start
  stop : s.stop = t.stop
  keyStart : s.keyStart = t.keyStart
  keyEnd : s.keyEnd = t.keyEnd
  inQuote : s.inQuote = t.inQuote
  level : s.level = t.level
  key : KeyWindow json s.key
  keyRead : ∀ h, BHeap.read h json = doc → h.read s.key = t.key
  stopLt : s.stop < json.len
  keyEndLt : s.keyEnd < json.len
  user : R s.user t.user

/-- A part of a slice reads the same wherever the slice does. -/
theorem window_read {h' : BHeap} {w : BSlice} (hw : Window json w) (hr : h'.read json = h.read json) : h'.read w = h.read w := by
  obtain ⟨a1, a2, a3, -⟩ := hw
  have key : ∀ h : BHeap, h.read w = ((h.read json).drop (w.off - json.off)).take w.len := by
    intro h
    have := sub_read (h := h) (s := json) (lo := w.off - json.off) (hi := w.off - json.off + w.len) (c := w.cap) (by omega) (by omega)
    rw [Nat.add_sub_cancel_left, show json.off + (w.off - json.off) = w.off by omega] at this
    rw [← this, ← a1]
  rw [key, key, hr]

theorem iterateKVMem_sim (hR : Holds R json doc) {c1 : BHeap × σ → BSlice → BSlice → Cb (BHeap × σ)} {c2 : τ → Bytes → Bytes → Cb τ}
    (hc : ∀ u t k w, R u t → KeyWindow json k → Window json w → CbRel R (c1 u k w) (c2 t (u.1.read k) (u.1.read w))) (path : List Bytes)
    {u : BHeap × σ} {t : τ} (h : R u t) :
    IterRel R (IterateKeyValueMem json c1 path u) (IterateKeyValue doc c2 path t) := by
  obtain ⟨hj, hd⟩ := hR u t h
  have hl := bread_length hj
  rw [hd] at hl
  have step : ∀ i (s : IkMem σ) (t : IkSt τ), IkMemRel R json doc s t → CtlRel (IkMemRel R json doc) (IterRel R) (ikBodyMem json c1 i s) (ikBody doc c2 i t) := by
    rintro i ⟨s1, s2, s3, s4, s5, s6, s7, s8⟩ ⟨t1, t2, t3, t4, t5, t6, t7, t8⟩ ⟨h1, h2, h3, h4, h5, h6, h7, h7', h9, h10, h8⟩
    simp only at h1 h2 h3 h4 h5 h6 h7 h7' h8 h9 h10
    subst h1 h2 h3 h4 h5 h6
    obtain ⟨hj', hd'⟩ := hR s8 t8 h8
    have r : ∀ a b c d e f, b < json.len → d < json.len →
        IkMemRel R json doc (⟨a, b, c, d, e, f, s7, s8⟩ : IkMem σ) (⟨a, b, c, d, e, f, t7, t8⟩ : IkSt τ) :=
      fun a b c d e f hb hd => ⟨rfl, rfl, rfl, rfl, rfl, rfl, h7, h7', hb, hd, h8⟩
    unfold ikBodyMem ikBody
    simp only [hd']
    cases hi : doc[i]? with
    | none => trivial
    | some c =>
      have hi' := lt_of_getElem? hi
      simp only
      split
      · exact r _ _ _ _ _ _ h9 h10
      split
      · unfold ikQuoteMem ikQuote
        simp only [hd']
        split
        · cases quoteScan doc i i
          · exact r _ _ _ _ _ _ h9 (by omega)
          · exact r _ _ _ _ _ _ h9 h10
          · exact r _ _ _ _ _ _ h9 h10
        · exact r _ _ _ _ _ _ h9 h10
      split
      · exact r _ _ _ _ _ _ h9 h10
      split
      · exact r _ _ _ _ _ _ h9 h10
      split
      · split
        · split
          · have hb : (lastNS doc ((firstNS doc s1 i).getD s1) i).getD s2 < json.len := by
              cases hx : lastNS doc ((firstNS doc s1 i).getD s1) i with
              | none => exact h9
              | some j => have := lastNS_lt hx; simp only [Option.getD_some]; omega
            have he := value_rel (h := s8.1) (a := (firstNS doc s1 i).getD s1) hj' hb
            rw [hd'] at he
            cases hv : ikValue doc ((firstNS doc s1 i).getD s1) ((lastNS doc ((firstNS doc s1 i).getD s1) i).getD s2) <;>
              cases hw : ikValueMem s8.1 json ((firstNS doc s1 i).getD s1) ((lastNS doc ((firstNS doc s1 i).getD s1) i).getD s2) <;>
              rw [hv, hw] at he <;> first | exact he.elim | trivial | skip
            obtain ⟨w1, rfl⟩ := he
            rename_i w
            have := hc s8 t8 s7 w h8 h7 w1
            rw [h7' _ hd'] at this
            simp only
            cases e1 : c1 s8 s7 w <;> cases e2 : c2 t8 t7 (s8.1.read w) <;> rw [e1, e2] at this <;> try exact this.elim
            · exact ⟨this.1, rfl⟩
            · trivial
          · exact ⟨h8, rfl⟩
        · exact r _ _ _ _ _ _ h9 h10
      split
      · split
        · have hb : (lastNS doc ((firstNS doc s1 i).getD s1 + 1) i).getD (i - 1) < json.len := by
            cases hx : lastNS doc ((firstNS doc s1 i).getD s1 + 1) i with
            | none => simp only [Option.getD_none]; omega
            | some j => have := lastNS_lt hx; simp only [Option.getD_some]; omega
          have he := value_rel (h := s8.1) (a := (firstNS doc s1 i).getD s1) hj' hb
          rw [hd'] at he
          cases hv : ikValue doc ((firstNS doc s1 i).getD s1) ((lastNS doc ((firstNS doc s1 i).getD s1 + 1) i).getD (i - 1)) <;>
            cases hw : ikValueMem s8.1 json ((firstNS doc s1 i).getD s1) ((lastNS doc ((firstNS doc s1 i).getD s1 + 1) i).getD (i - 1)) <;>
            rw [hv, hw] at he <;> first | exact he.elim | trivial | skip
          obtain ⟨w1, rfl⟩ := he
          rename_i w
          have := hc s8 t8 s7 w h8 h7 w1
          rw [h7' _ hd'] at this
          simp only
          cases e1 : c1 s8 s7 w with
          | panic => cases e2 : c2 t8 t7 (s8.1.read w) <;> rw [e1, e2] at this <;> first | exact this.elim | trivial
          | ret s b e =>
            cases e2 : c2 t8 t7 (s8.1.read w) <;> rw [e1, e2] at this <;> try exact this.elim
            obtain ⟨h5, rfl, rfl⟩ := this
            cases e with
            | some e => exact ⟨h5, rfl⟩
            | none =>
              cases b with
              | false => exact ⟨h5, rfl⟩
              | true => exact ⟨rfl, rfl, rfl, rfl, rfl, rfl, h7, h7', hb, h10, h5⟩
        · split
          · have he := sub_rel (h := s8.1) (lo := (s3 : Int) + 1) (hi := s4) hj' (by omega)
            rw [hd'] at he
            cases hv : slice doc ((s3 : Int) + 1) s4 <;> cases hw : json.sub ((s3 : Int) + 1) s4 <;> rw [hv, hw] at he <;>
              first | exact he.elim | trivial | skip
            obtain ⟨w1, w2⟩ := he
            refine ⟨rfl, rfl, rfl, rfl, rfl, rfl, .inl w1, ?_, h9, h10, h8⟩
            intro h' hh
            rw [← w2]
            exact window_read w1 (hh.trans hd'.symm)
          · exact r _ _ _ _ _ _ h9 h10
      · exact r _ _ _ _ _ _ h9 h10
  unfold IterateKeyValueMem IterateKeyValue
  simp only [hd]
  split
  · exact ⟨h, rfl⟩
  · cases valueStart doc path with
    | panic => trivial
    | err e => exact ⟨h, rfl⟩
    | ok start =>
      simp only
      cases hs : doc[start]? with
      | none => trivial
      | some c =>
        have := lt_of_getElem? hs
        simp only [hl]
        split
        · have := forUp_sim (hi := json.len) step (i := start) (s := ⟨start, 0, 0, 0, false, 0, .nil, u⟩) (t := ⟨start, 0, 0, 0, false, 0, [], t⟩)
            ⟨rfl, rfl, rfl, rfl, rfl, rfl, .inr rfl, fun _ _ => nil_read, by simp only; omega, by simp only; omega, h⟩
          cases e1 : forUp json.len (ikBodyMem json c1) start ⟨start, 0, 0, 0, false, 0, .nil, u⟩ <;>
            cases e2 : forUp json.len (ikBody doc c2) start ⟨start, 0, 0, 0, false, 0, [], t⟩ <;>
            rw [e1, e2] at this <;> try exact this.elim
          · exact ⟨this.user, rfl⟩
          · exact this
        · exact ⟨h, rfl⟩

/-- A slice of the document and its bytes, or the same error, or two panics. -/
def GetRel (h : BHeap) (json : BSlice) : Out BSlice → Out Bytes → Prop
  | .ok w, .ok v => Window json w ∧ h.read w = v
  | .err e, .err e' => e = e'
  | .panic, .panic => True
  | _, _ => False

/-- `Get` in memory gives a part of the document, with the bytes that `Get` gives. -/
theorem getMem_rel (path : List Bytes) (hj : json.ok h) : GetRel h json (GetMem h json path) (Get (h.read json) path) := by
  unfold GetMem Get
  split
  · exact ⟨.rfl, rfl⟩
  · rename_i hlen
    have hp : path ≠ [] := by rintro rfl; exact hlen rfl
    cases hl : core (h.read json) false path with
    | err e => rfl
    | panic => trivial
    | ok l =>
      have hsp := (core_shape hp hl).1
      have h1 := hsp.le
      have h2 := hsp.len
      rw [bread_length hj] at h2
      have := sub_rel (h := h) (lo := l.start) (hi := l.stop) hj (by omega)
      simp only [Out.bind_ok]
      cases hv : slice (h.read json) l.start l.stop <;> cases hw : json.sub l.start l.stop <;> rw [hv, hw] at this <;>
        first | exact this.elim | trivial | exact this | skip
      unfold slice at hv
      split at hv <;> cases hv

theorem walkBytes_sim (hR : Holds R json doc) (isFloat : Bytes → Bool) {c1 : BHeap × σ → Bytes → BSlice → List Bytes → Cb (BHeap × σ)}
    {c2 : τ → Bytes → Bytes → List Bytes → Cb τ}
    (hc : ∀ u t k w p, R u t → Window json w → CbRel R (c1 u k w p) (c2 t k (u.1.read w) p)) :
    ∀ (fuel : Nat) (path : List Bytes) {u : BHeap × σ} {t : τ}, R u t →
      IterRel R (walkBytes isFloat json c1 fuel path u) (walk isFloat doc c2 fuel path t)
  | 0, _, _, _, _ => trivial
  | fuel + 1, path, u, t, h => by
    obtain ⟨hj, hd⟩ := hR u t h
    unfold walkBytes walk
    rw [hd]
    have leaf : IterRel R
        (match GetMem u.1 json path with
          | .panic => .panic
          | .err e => .done u (some e)
          | .ok val =>
            match c1 u (path.getLast?.getD []) val path with
            | .panic => .panic
            | .ret u _ e => .done u e)
        (match Get doc path with
          | .panic => .panic
          | .err e => .done t (some e)
          | .ok val =>
            match c2 t (path.getLast?.getD []) val path with
            | .panic => .panic
            | .ret u _ e => .done u e) := by
      have := getMem_rel (h := u.1) path hj
      rw [hd] at this
      cases h1 : GetMem u.1 json path <;> cases h2 : Get doc path <;> rw [h1, h2] at this <;> try exact this.elim
      · obtain ⟨w1, rfl⟩ := this
        rename_i w
        have := hc u t (path.getLast?.getD []) w path h w1
        simp only
        cases e1 : c1 u (path.getLast?.getD []) w path <;> cases e2 : c2 t (path.getLast?.getD []) (u.1.read w) path <;>
          rw [e1, e2] at this <;> try exact this.elim
        · exact ⟨this.1, this.2.2⟩
        · trivial
      · exact ⟨h, by rw [this]⟩
      · trivial
    cases GetType isFloat doc path with
    | panic => trivial
    | err e => exact ⟨h, rfl⟩
    | ok ty =>
      cases ty with
      | object =>
        refine iterateKVMem_sim hR (fun u t k w hu hk hw => ?_) path h
        have := walkBytes_sim hR isFloat hc fuel (path ++ [u.1.read k]) hu
        cases e1 : walkBytes isFloat json c1 fuel (path ++ [u.1.read k]) u <;> cases e2 : walk isFloat doc c2 fuel (path ++ [u.1.read k]) t <;>
          rw [e1, e2] at this <;> try exact this.elim
        · obtain ⟨h1, rfl⟩ := this
          rename_i er _
          cases er <;> exact ⟨h1, rfl, rfl⟩
        · trivial
      | array =>
        have := iterateArrayMem_sim (σ := σ × Nat) (τ := τ × Nat) (R := fun u t => R (u.1, u.2.1) t.1 ∧ u.2.2 = t.2) (json := json) (doc := doc)
          (fun u t hu => hR (u.1, u.2.1) t.1 hu.1)
          (c1 := fun (u : BHeap × (σ × Nat)) _ =>
            match walkBytes isFloat json c1 fuel (path ++ [itoa u.2.2]) (u.1, u.2.1) with
            | .panic => .panic
            | .done u' (some e) => .ret (u'.1, (u'.2, u.2.2)) false (some e)
            | .done u' none => .ret (u'.1, (u'.2, u.2.2 + 1)) true none)
          (c2 := fun (u : τ × Nat) _ =>
            match walk isFloat doc c2 fuel (path ++ [itoa u.2]) u.1 with
            | .panic => .panic
            | .done u' (some e) => .ret (u', u.2) false (some e)
            | .done u' none => .ret (u', u.2 + 1) true none)
          (fun u t w hu _ => by
            obtain ⟨h1, h2⟩ := hu
            have := walkBytes_sim hR isFloat hc fuel (path ++ [itoa u.2.2]) h1
            rw [← h2]
            cases e1 : walkBytes isFloat json c1 fuel (path ++ [itoa u.2.2]) (u.1, u.2.1) <;>
              cases e2 : walk isFloat doc c2 fuel (path ++ [itoa u.2.2]) t.1 <;>
              rw [e1, e2] at this <;> try exact this.elim
            · obtain ⟨h3, rfl⟩ := this
              rename_i er _
              cases er
              · exact ⟨⟨h3, rfl⟩, rfl, rfl⟩
              · exact ⟨⟨h3, rfl⟩, rfl, rfl⟩
            · trivial)
          path (u := (u.1, (u.2, 0))) (t := (t, 0)) ⟨h, rfl⟩
        simp only
        revert this
        generalize IterateArrayMem json _ path (u.1, (u.2, 0)) = r1
        generalize IterateArray doc _ path (t, 0) = r2
        intro this
        cases r1 <;> cases r2 <;> try exact this.elim
        · exact ⟨this.1.1, this.2⟩
        · trivial
      | _ => exact leaf

end Jin
