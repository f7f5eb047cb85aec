import Verif.Props.Utf8
import Verif.Model.Make
import Verif.Model.Others
/-!
# Props.Utf8Make — C116 for `Flatten`, `Indent`, the typed calls, the constructors and `JO`
-/

namespace Jin
open Spec

/-! ### Flatten, Indent -/

/-- `u` is `t` with each ASCII byte replaced by ASCII bytes, or by none. -/
def AsciiEdit (t u : Bytes) : Prop :=
  ∃ ps : List (UInt8 × Bytes), t = ps.map Prod.fst ∧ u = ps.flatMap Prod.snd ∧ ∀ p ∈ ps, p.1 < 128 ∧ (∀ c ∈ p.2, c < 128) ∨ p.2 = [p.1]

theorem AsciiEdit.snoc {t u w : Bytes} {c : UInt8} (h : AsciiEdit t u) (hw : c < 128 ∧ (∀ x ∈ w, x < 128) ∨ w = [c]) : AsciiEdit (t ++ [c]) (u ++ w) := by
  obtain ⟨ps, rfl, rfl, h⟩ := h
  refine ⟨ps ++ [(c, w)], by simp, by simp, ?_⟩
  intro p hp
  rcases List.mem_append.1 hp with hp | hp
  · exact h p hp
  · rw [List.mem_singleton.1 hp]; exact hw

theorem AsciiEdit.utf8 {t u : Bytes} (ht : Utf8 t) (h : AsciiEdit t u) : Utf8 u := by
  obtain ⟨cs, rfl⟩ := ht
  obtain ⟨ps, h1, rfl, h2⟩ := h
  induction cs generalizing ps with
  | nil =>
    cases ps with
    | nil => exact Utf8.nil
    | cons p ps => cases h1
  | cons c cs ih =>
    rw [List.flatMap_cons] at h1
    obtain ⟨p1, p2, rfl, e1, e2⟩ := List.map_eq_append_iff.1 h1.symm
    rw [List.flatMap_append]
    refine Utf8.append ?_ (ih p2 e2.symm fun p hp => h2 p (List.mem_append_right _ hp))
    rcases utf8_encode c with ⟨b, hb, e⟩ | hhi
    · rw [e] at e1
      refine Utf8.ascii ?_
      intro x hx
      obtain ⟨p, hp, hx⟩ := List.mem_flatMap.1 hx
      have hpb : p.1 = b := by
        have := List.mem_map_of_mem (f := Prod.fst) hp
        rw [e1] at this
        exact List.mem_singleton.1 this
      rcases h2 p (List.mem_append_left _ hp) with h | h
      · exact h.2 x hx
      · rw [h] at hx; rw [List.mem_singleton.1 hx, hpb]; exact hb
    · have : p1.flatMap Prod.snd = String.utf8EncodeChar c := by
        rw [← e1]
        have hall : ∀ p ∈ p1, p.2 = [p.1] := by
          intro p hp
          rcases h2 p (List.mem_append_left _ hp) with h | h
          · have := hhi p.1 (e1 ▸ List.mem_map_of_mem (f := Prod.fst) hp)
            exact absurd (UInt8.lt_of_lt_of_le h.1 this) (UInt8.lt_irrefl _)
          · exact h
        clear e1 h1 h2
        induction p1 with
        | nil => rfl
        | cons p ps ihp =>
          rw [List.flatMap_cons, List.map_cons, hall p (by simp), ihp fun q hq => hall q (by simp [hq])]
          rfl
      rw [this]
      exact ⟨[c], by simp⟩

theorem take_snoc {json : Bytes} {i : Nat} {c : UInt8} (h : json[i]? = some c) : json.take (i + 1) = json.take i ++ [c] := by
  obtain ⟨hi, rfl⟩ := List.getElem?_eq_some_iff.1 h
  rw [List.take_succ_eq_append_getElem hi]

/-- **C116** `Flatten`. -/
theorem C116_flatten {json : Bytes} (hu : Utf8 json) : Utf8 (Flatten json) := by
  have step : ∀ i (s : FlatSt), i < json.length → AsciiEdit (json.take i) s.out →
      Step i (fun i s => AsciiEdit (json.take i) s.out) (fun s => AsciiEdit json s.out) (fun _ => True) (flatBody json i s) := by
    intro i s hi h
    obtain ⟨d, hd⟩ := getElem_some hi
    have one : AsciiEdit (json.take (i + 1)) (s.out ++ [d]) := by rw [take_snoc hd]; exact h.snoc (.inr rfl)
    unfold flatBody
    simp only [hd]
    split
    · rename_i h92
      rw [beq_iff_eq] at h92
      cases he : json[i + 1]? with
      | none =>
        show AsciiEdit (json.take (max i (i + 1) + 1)) _
        rw [Nat.max_eq_right (Nat.le_succ i)]
        rw [List.getElem?_eq_none_iff] at he
        rw [List.take_of_length_le (by omega)]
        rw [List.take_of_length_le (by omega)] at one
        exact one
      | some e =>
        show AsciiEdit (json.take (max i (i + 1) + 1)) _
        rw [Nat.max_eq_right (Nat.le_succ i), take_snoc he]
        have := one.snoc (w := [e]) (c := e) (.inr rfl)
        rwa [List.append_assoc] at this
    · split
      · exact one
      · split
        · exact one
        · split
          · exact one
          · rename_i hs
            show AsciiEdit (json.take (i + 1)) s.out
            rw [take_snoc hd]
            have := h.snoc (w := []) (c := d) (.inl ⟨space_ascii (by simpa using hs), by simp⟩)
            rwa [List.append_nil] at this
  have := forUp_inv (hi := json.length) (P := fun i (s : FlatSt) => AsciiEdit (json.take i) s.out) (Q := fun s => AsciiEdit json s.out)
    (R := fun _ : Unit => True) step (fun i s hi h => by rwa [List.take_of_length_le hi] at h) (i := 0) (s := ⟨[], false⟩) ⟨[], rfl, rfl, by simp⟩
  unfold Flatten
  split
  · exact Utf8.nil
  · rename_i s hs
    rw [hs] at this
    exact AsciiEdit.utf8 hu this

/-- **C116** `Indent`. -/
theorem C116_indent {json w : Bytes} (hu : Utf8 json) (h : Indent json = .ok w) : Utf8 w := by
  have hf := C116_flatten hu
  unfold Indent at h
  simp only at h
  generalize Flatten json = json at h hf
  have tabs : ∀ {n : Int} {t : Bytes}, createTabs n = .ok t → ∀ x ∈ t, x < 128 := by
    intro n t ht x hx
    unfold createTabs at ht
    split at ht
    · cases ht
    · cases ht; rw [(List.mem_replicate.1 hx).2]; decide
  have step : ∀ i (s : IndSt), i < json.length → AsciiEdit (json.take i) s.out →
      Step i (fun i s => AsciiEdit (json.take i) s.out) (fun s => AsciiEdit json s.out) (fun _ => True) (indBody json i s) := by
    intro i s hi h
    obtain ⟨d, hd⟩ := getElem_some hi
    have one : AsciiEdit (json.take (i + 1)) (s.out ++ [d]) := by rw [take_snoc hd]; exact h.snoc (.inr rfl)
    have more : ∀ w, d < 128 → (∀ x ∈ w, x < 128) → AsciiEdit (json.take (i + 1)) (s.out ++ w) := by
      intro w hw hx; rw [take_snoc hd]; exact h.snoc (.inl ⟨hw, hx⟩)
    unfold indBody
    simp only [hd]
    split
    · split
      · split <;> exact one
      · exact trivial
    · split
      · exact one
      · split
        · split
          · rename_i hb
            have hb : d < 128 := by
              simp only [Bool.or_eq_true, beq_iff_eq] at hb
              rcases hb with rfl | rfl <;> decide
            split
            · rename_i t ht
              show AsciiEdit (json.take (i + 1)) _
              rw [List.append_assoc]
              refine more _ hb ?_
              intro x hx
              rcases List.mem_append.1 hx with hx | hx
              · simp only [List.mem_cons, List.not_mem_nil, or_false] at hx
                rcases hx with rfl | rfl
                · exact hb
                · decide
              · exact tabs ht x hx
            · exact trivial
          · split
            · rename_i hb
              have hb : d < 128 := by
                simp only [Bool.or_eq_true, beq_iff_eq] at hb
                rcases hb with rfl | rfl <;> decide
              split
              · rename_i t ht
                show AsciiEdit (json.take (i + 1)) _
                rw [List.append_assoc, List.append_assoc]
                refine more _ hb ?_
                intro x hx
                simp only [List.mem_append, List.mem_singleton] at hx
                rcases hx with rfl | hx | rfl
                · decide
                · exact tabs ht x hx
                · exact hb
              · exact trivial
            · split
              · rename_i hb
                have hb : d < 128 := by
                  rw [beq_iff_eq] at hb; rw [hb]; decide
                split
                · rename_i t ht
                  show AsciiEdit (json.take (i + 1)) _
                  rw [List.append_assoc]
                  refine more _ hb ?_
                  intro x hx
                  rcases List.mem_append.1 hx with hx | hx
                  · simp only [List.mem_cons, List.not_mem_nil, or_false] at hx
                    rcases hx with rfl | rfl
                    · exact hb
                    · decide
                  · exact tabs ht x hx
                · exact trivial
              · split
                · rename_i hb
                  rw [beq_iff_eq] at hb
                  refine more _ (by rw [hb]; decide) ?_
                  intro x hx
                  simp only [List.mem_cons, List.not_mem_nil, or_false] at hx
                  rcases hx with rfl | rfl
                  · rw [hb]; decide
                  · decide
                · exact one
        · rename_i hs
          show AsciiEdit (json.take (i + 1)) s.out
          have := more [] (space_ascii (by simpa using hs)) (by simp)
          rwa [List.append_nil] at this
  have := forUp_inv (hi := json.length) (P := fun i (s : IndSt) => AsciiEdit (json.take i) s.out) (Q := fun s => AsciiEdit json s.out)
    (R := fun _ : Unit => True) step (fun i s hi h => by rwa [List.take_of_length_le hi] at h) (i := 0) (s := ⟨[], false, 0⟩) ⟨[], rfl, rfl, by simp⟩
  split at h
  · cases h
  · rename_i s hs
    rw [hs] at this
    cases h
    exact AsciiEdit.utf8 hf this

/-! ### Several keys -/

/-- **C116** `GetAll`. -/
theorem C116_getAll {json : Bytes} (hu : Utf8 json) {path : List Bytes} : ∀ {keys l : List Bytes}, GetAll json keys path = .ok l → ∀ w ∈ l, Utf8 w
  | [], l, h => by cases h; simp
  | k :: ks, l, h => by
    unfold GetAll GetString at h
    cases hg : Get json (path ++ [k]) with
    | panic => rw [hg] at h; cases h
    | err _ => rw [hg] at h; cases h
    | ok v =>
      rw [hg] at h
      simp only [Out.bind_ok] at h
      cases hr : GetAll json ks path with
      | panic => rw [hr] at h; cases h
      | err _ => rw [hr] at h; cases h
      | ok vs =>
        rw [hr] at h
        cases h
        intro w hw
        rcases List.mem_cons.1 hw with rfl | hw
        · exact C116_get hu hg
        · exact C116_getAll hu hr w hw

/-- Keys and values of a map. -/
def GoMap.utf8 (m : GoMap) : Prop := ∀ e ∈ m, Utf8 e.1 ∧ Utf8 e.2

theorem GoMap.utf8_set {m : GoMap} {k v : Bytes} (hm : m.utf8) (hk : Utf8 k) (hv : Utf8 v) : (m.set k v).utf8 := by
  induction m with
  | nil => intro e he; rw [List.mem_singleton.1 he]; exact ⟨hk, hv⟩
  | cons a m ih =>
    unfold GoMap.set
    intro e he
    split at he
    · rcases List.mem_cons.1 he with rfl | he
      · exact ⟨hk, hv⟩
      · exact hm e (List.mem_cons_of_mem _ he)
    · rcases List.mem_cons.1 he with rfl | he
      · exact hm _ (List.mem_cons_self ..)
      · exact ih (fun e he => hm e (List.mem_cons_of_mem _ he)) e he

theorem getAllMapLoop_utf8 {json : Bytes} (hu : Utf8 json) {path : List Bytes} : ∀ {keys : List Bytes} {m r : GoMap}, (∀ k ∈ keys, Utf8 k) → m.utf8 →
    getAllMapLoop json path keys m = .ok r → r.utf8
  | [], m, r, _, hm, h => by cases h; exact hm
  | k :: ks, m, r, hk, hm, h => by
    unfold getAllMapLoop GetString at h
    cases hg : Get json (path ++ [k]) with
    | panic => rw [hg] at h; cases h
    | err _ => rw [hg] at h; cases h
    | ok v =>
      rw [hg] at h
      exact getAllMapLoop_utf8 hu (fun k h => hk k (List.mem_cons_of_mem _ h)) (GoMap.utf8_set hm (hk k (List.mem_cons_self ..)) (C116_get hu hg)) h

/-- **C116** `GetAllMap`. -/
theorem C116_getAllMap {json : Bytes} (hu : Utf8 json) {keys path : List Bytes} (hk : ∀ k ∈ keys, Utf8 k) {m : GoMap} (h : GetAllMap json keys path = .ok m) :
    ∀ e ∈ m, Utf8 e.1 ∧ Utf8 e.2 :=
  getAllMapLoop_utf8 hu hk (by intro e he; cases he) h

/-- What every call of the callback keeps is kept by the iteration. -/
theorem iterateKeyValue_keeps {σ : Type} {P : σ → Prop} {json : Bytes} {cb : σ → Bytes → Bytes → Cb σ} (hcb : ∀ u k v u' b e, P u → cb u k v = .ret u' b e → P u')
    {path : List Bytes} {u u' : σ} {er : Option Err} (hu : P u) (h : IterateKeyValue json cb path u = .done u' er) : P u' := by
  have step : ∀ i (s : IkSt σ), i < json.length → P s.user →
      Step i (fun _ s => P s.user) (fun s => P s.user) (fun r => ∀ u e, r = IterRes.done u e → P u) (ikBody json cb i s) := by
    intro i s hi hs
    obtain ⟨d, hd⟩ := getElem_some hi
    have hq : P (ikQuote json i s).user := by
      unfold ikQuote
      (repeat' split) <;> exact hs
    unfold ikBody
    simp only [hd]
    (repeat' split) <;> first
      | exact hs
      | exact hq
      | (intro u e he; cases he; exact hs)
      | (intro u e he; cases he; done)
      | (intro u e he; cases he; rename_i hc; exact hcb _ _ _ _ _ _ hs hc)
      | (rename_i hc; exact hcb _ _ _ _ _ _ hs hc)
  unfold IterateKeyValue at h
  split at h
  · cases h; exact hu
  split at h
  · cases h
  · cases h; exact hu
  rename_i st _
  split at h
  · cases h
  split at h
  · have := forUp_inv (hi := json.length) step (fun _ _ _ h => h) (i := st) (s := ⟨st, 0, 0, 0, false, 0, [], u⟩) hu
    split at h
    · rename_i r hr; rw [hr] at this; exact this _ _ h
    · rename_i s hs; rw [hs] at this; cases h; exact this
  · cases h; exact hu

theorem iterateArray_keeps {σ : Type} {P : σ → Prop} {json : Bytes} {cb : σ → Bytes → Cb σ} (hcb : ∀ u v u' b e, P u → cb u v = .ret u' b e → P u')
    {path : List Bytes} {u u' : σ} {er : Option Err} (hu : P u) (h : IterateArray json cb path u = .done u' er) : P u' := by
  have step : ∀ i (s : IaSt σ), i < json.length → P s.user →
      Step i (fun _ s => P s.user) (fun s => P s.user) (fun r => ∀ u e, r = IterRes.done u e → P u) (iaBody json cb i s) := by
    intro i s hi hs
    obtain ⟨d, hd⟩ := getElem_some hi
    unfold iaBody
    simp only [hd]
    (repeat' split) <;> first
      | exact hs
      | (intro u e he; cases he; exact hs)
      | (intro u e he; cases he; done)
      | (intro u e he; cases he; rename_i hc; exact hcb _ _ _ _ _ hs hc)
      | (rename_i hc; exact hcb _ _ _ _ _ hs hc)
  unfold IterateArray at h
  simp only at h
  split at h
  · cases h; exact hu
  split at h
  · split at h <;> (cases h; exact hu)
  split at h
  · cases h
  · cases h; exact hu
  rename_i st _
  split at h
  · cases h
  split at h
  · cases h; exact hu
  · have := forUp_inv (hi := json.length) step (fun _ _ _ h => h) (i := st + 1) (s := ⟨st + 1, false, 0, u⟩) hu
    split at h
    · rename_i r hr; rw [hr] at this; exact this _ _ h
    · rename_i s hs; rw [hs] at this; cases h; exact this

open Classical in
/-- **C116** `GetMap`. -/
theorem C116_getMap {json : Bytes} (hu : Utf8 json) {path : List Bytes} {m : GoMap} (h : GetMap json path = .ok (some m)) : ∀ e ∈ m, Utf8 e.1 ∧ Utf8 e.2 := by
  have obj : ∀ {m : GoMap} {u : GoMap} {e : Option Err}, u.utf8 → IterateKeyValue json (fun (m : GoMap) k v => .ret (m.set k v) true none) path u = .done m e → m.utf8 := by
    intro m u e hu' h
    rw [C116_iterateKeyValue (cb' := fun (m : GoMap) k v => if Utf8 k ∧ Utf8 v then .ret (m.set k v) true none else .panic) hu
      (fun u k v hk hv => by rw [if_pos ⟨hk, hv⟩])] at h
    refine iterateKeyValue_keeps (P := GoMap.utf8) ?_ hu' h
    intro u k v u' b e hP hc
    split at hc
    · rename_i hkv; cases hc; exact GoMap.utf8_set hP hkv.1 hkv.2
    · cases hc
  have arr : ∀ {m u : GoMap × Nat} {e : Option Err}, u.1.utf8 →
      IterateArray json (fun (m : GoMap × Nat) v => .ret (m.1.set (itoa m.2) v, m.2 + 1) true none) path u = .done m e → m.1.utf8 := by
    intro m u e hu' h
    rw [C116_iterateArray (cb' := fun (m : GoMap × Nat) v => if Utf8 v then .ret (m.1.set (itoa m.2) v, m.2 + 1) true none else .panic) hu
      (fun u v hv => by rw [if_pos hv])] at h
    refine iterateArray_keeps (P := fun m => m.1.utf8) ?_ hu' h
    intro u v u' b e hP hc
    split at hc
    · rename_i hv; cases hc; exact GoMap.utf8_set hP (itoa_utf8 _) hv
    · cases hc
  have nil : GoMap.utf8 [] := by intro e he; cases he
  unfold GetMap at h
  split at h
  · cases h
  cases hg : getStartEnd json path with
  | panic => rw [hg] at h; cases h
  | err _ => rw [hg] at h; cases h
  | ok r =>
    rw [hg] at h
    simp only [Out.bind_ok] at h
    cases ha : idx json r.1 with
    | panic => rw [ha] at h; cases h
    | err _ => rw [ha] at h; cases h
    | ok a =>
      rw [ha] at h
      simp only [Out.bind_ok] at h
      cases hz : idx json r.2 with
      | panic => rw [hz] at h; (repeat' split at h) <;> cases h
      | err _ => rw [hz] at h; (repeat' split at h) <;> cases h
      | ok z =>
        rw [hz] at h
        simp only [Out.bind_ok] at h
        split at h
        · split at h
          · unfold IterRes.toOut at h
            split at h
            · cases h
            · cases h
            · rename_i s hs; cases h; exact obj nil hs
          · cases h
        · split at h
          · split at h
            · unfold IterRes.toOut at h
              split at h
              · cases h
              · cases h
              · rename_i s hs; cases h; exact arr nil hs
            · cases h
          · cases h

/-! ### The typed calls -/

theorem formatType_utf8 {isFloat : Bytes → Bool} {v : Bytes} (hv : Utf8 v) : Utf8 (formatType isFloat v) := by
  have q : Utf8 (quote v) := Utf8.cons (by decide) (hv.append (Utf8.one (by decide)))
  unfold formatType
  split
  · exact Utf8.ascii (by decide)
  · simp only
    (repeat' split) <;> first | exact hv | exact q

theorem boolText_utf8 (b : Bool) : Utf8 (boolText b) := by
  cases b <;> exact Utf8.ascii (by decide)

theorem formatInt_utf8 {n : Int} {b : Nat} {t : Bytes} (h : formatInt n b = .ok t) : Utf8 t := by
  unfold formatInt at h
  split at h
  · cases h
  · cases h
    split
    · exact Utf8.cons (by decide) (.ascii (natDigits_ascii (by omega) (by omega) _))
    · exact .ascii (natDigits_ascii (by omega) (by omega) _)

theorem addKV_utf8 {json key out : Bytes} {text : Out Bytes} {path : List Bytes} {er : Option Err} (hu : Utf8 json) (hk : Utf8 key)
    (ht : ∀ t, text = .ok t → Utf8 t) (h : addKV json key text path = .done out er) : Utf8 out := by
  unfold addKV at h
  split at h
  · cases h; exact hu
  · rcases bindOut_any h with ⟨-, rfl⟩ | ⟨t, h1, h2⟩
    · exact hu
    · exact C116_addKeyValue hu hk (fun x hx => by cases hx; exact ht _ h1) h2

theorem insertText_utf8 {json out : Bytes} {i : Int} {text : Out Bytes} {path : List Bytes} {er : Option Err} (hu : Utf8 json)
    (ht : ∀ t, text = .ok t → Utf8 t) (h : insertText json i text path = .done out er) : Utf8 out := by
  unfold insertText at h
  split at h
  · cases h; exact hu
  · rcases bindOut_any h with ⟨-, rfl⟩ | ⟨t, h1, h2⟩
    · exact hu
    · exact C116_insert hu (ht _ h1) h2

/-- The texts a call of `JO` is given, apart from the path. -/
def JOp.texts {F : Type} : JOp F → List Bytes
  | .addKeyValue k v _ | .store k v _ => k :: v.toList
  | .add v _ | .insert _ v _ | .addString v _ | .insertString _ v _ | .set v _ | .setString v _ => [v]
  | .addKeyValueString k v _ | .storeString k v _ => [k, v]
  | .addKeyValueInt k _ _ | .addKeyValueFloat k _ _ | .addKeyValueBool k _ _ | .storeInt k _ _ | .storeFloat k _ _ | .storeBool k _ _ | .setKey k _ => [k]
  | _ => []

/-- **C116** Every mutating call of `JO`, and so every typed call of the package that it stands for; `FormatFloat` is
assumed to give UTF-8. -/
theorem C116_step {F : Type} {fl : FloatLib F} (hfl : ∀ x, Utf8 (fl.format x)) {j : JO} {op : JOp F} (hu : Utf8 j.body) (ho : ∀ t ∈ op.texts, Utf8 t)
    {out : Bytes} {er : Option Err} (h : j.step fl op = .done out er) : Utf8 out := by
  have opt : ∀ {k : Bytes} {v : Option Bytes}, (∀ t ∈ k :: v.toList, Utf8 t) → Utf8 k ∧ ∀ x, v = some x → Utf8 x :=
    fun h => ⟨h _ (by simp), fun x hx => h x (by simp [hx])⟩
  have lit : ∀ {w : Bytes}, Utf8 w → ∀ x, some w = some x → Utf8 x := fun hw x hx => by cases hx; exact hw
  have lit' : ∀ {w : Bytes}, Utf8 w → ∀ x, (Out.ok w : Out Bytes) = .ok x → Utf8 x := fun hw x hx => by cases hx; exact hw
  cases op with
  | addKeyValue k v p => exact C116_addKeyValue hu (opt ho).1 (opt ho).2 h
  | add v p => exact C116_add hu (ho _ (by simp [JOp.texts])) h
  | insert i v p => exact C116_insert hu (ho _ (by simp [JOp.texts])) h
  | addKeyValueString k v p =>
    simp only [JO.step] at h
    unfold AddKeyValueString at h
    split at h
    · cases h; exact Utf8.nil
    · exact C116_addKeyValue hu (ho _ (by simp [JOp.texts])) (lit (formatType_utf8 (ho _ (by simp [JOp.texts])))) h
  | addKeyValueInt k n p => exact addKV_utf8 hu (ho _ (by simp [JOp.texts])) (lit' (itoa_utf8 n)) h
  | addKeyValueFloat k x p => exact addKV_utf8 hu (ho _ (by simp [JOp.texts])) (lit' (hfl x)) h
  | addKeyValueBool k b p => exact addKV_utf8 hu (ho _ (by simp [JOp.texts])) (lit' (boolText_utf8 b)) h
  | addString v p => exact C116_add hu (formatType_utf8 (ho _ (by simp [JOp.texts]))) h
  | addInt n p => exact C116_add hu (itoa_utf8 n) h
  | addFloat x p => exact C116_add hu (hfl x) h
  | addBool b p => exact C116_add hu (boolText_utf8 b) h
  | insertString i v p =>
    simp only [JO.step] at h
    unfold InsertString at h
    split at h
    · cases h; exact Utf8.nil
    · exact C116_insert hu (formatType_utf8 (ho _ (by simp [JOp.texts]))) h
  | insertInt i n p => exact insertText_utf8 hu (lit' (itoa_utf8 n)) h
  | insertFloat i x p => exact insertText_utf8 hu (lit' (hfl x)) h
  | insertBool i b p => exact insertText_utf8 hu (lit' (boolText_utf8 b)) h
  | store k v p => exact C116_store hu (opt ho).1 (opt ho).2 h
  | storeString k v p => exact C116_store hu (ho _ (by simp [JOp.texts])) (lit (ho _ (by simp [JOp.texts]))) h
  | storeInt k n p => exact C116_store hu (ho _ (by simp [JOp.texts])) (lit (itoa_utf8 n)) h
  | storeFloat k x p => exact C116_store hu (ho _ (by simp [JOp.texts])) (lit (hfl x)) h
  | storeBool k b p => exact C116_store hu (ho _ (by simp [JOp.texts])) (lit (boolText_utf8 b)) h
  | set v p => exact C116_set hu (ho _ (by simp [JOp.texts])) h
  | setString v p => exact C116_set hu (formatType_utf8 (ho _ (by simp [JOp.texts]))) h
  | setInt n p => exact C116_set hu (itoa_utf8 n) h
  | setFloat x p => exact C116_set hu (hfl x) h
  | setBool b p => exact C116_set hu (boolText_utf8 b) h
  | setKey k p => exact C116_setKey hu (ho _ (by simp [JOp.texts])) h
  | delete p => exact C116_delete hu h

/-- **C116** The calls with a width of 32 or 64 bits, which `JO` lacks. -/
theorem C116_wide {json key out : Bytes} {i : Int} {path : List Bytes} {er : Option Err} (hu : Utf8 json) (hk : Utf8 key) :
    (∀ n, AddKeyValueInt32 json key n path = .done out er → Utf8 out) ∧ (∀ n, AddKeyValueUint32 json key n path = .done out er → Utf8 out) ∧
    (∀ n, AddKeyValueInt64 json key n path = .done out er → Utf8 out) ∧ (∀ n, AddKeyValueUint64 json key n path = .done out er → Utf8 out) ∧
    (∀ n, AddKeyValueUint json key n path = .done out er → Utf8 out) ∧
    (∀ n, AddInt32 json n path = .done out er → Utf8 out) ∧ (∀ n, AddUint32 json n path = .done out er → Utf8 out) ∧
    (∀ n, InsertInt32 json i n path = .done out er → Utf8 out) ∧ (∀ n, InsertUint32 json i n path = .done out er → Utf8 out) := by
  have add : ∀ {n : Int} {b : Nat}, addText json (formatInt n b) path = .done out er → Utf8 out := by
    intro n b h
    unfold addText at h
    rcases bindOut_any h with ⟨-, rfl⟩ | ⟨t, h1, h2⟩
    · exact hu
    · exact C116_add hu (formatInt_utf8 h1) h2
  exact ⟨fun n => addKV_utf8 hu hk fun t ht => formatInt_utf8 ht, fun n => addKV_utf8 hu hk fun t ht => formatInt_utf8 ht,
    fun n => addKV_utf8 hu hk fun t ht => formatInt_utf8 ht, fun n => addKV_utf8 hu hk fun t ht => formatInt_utf8 ht,
    fun n => addKV_utf8 hu hk fun t ht => formatInt_utf8 ht, fun n => add, fun n => add,
    fun n => insertText_utf8 hu fun t ht => formatInt_utf8 ht, fun n => insertText_utf8 hu fun t ht => formatInt_utf8 ht⟩

/-! ### Constructors -/

theorem dropLast_utf8 {t : Bytes} {c : UInt8} (hu : Utf8 t) (h : t.getLast? = some c) (hc : c < 128) : Utf8 t.dropLast := by
  have e : t = t.dropLast ++ [c] := by
    rw [List.getLast?_eq_some_iff] at h
    obtain ⟨a, rfl⟩ := h
    simp
  rw [e] at hu
  exact (Utf8.split hc hu).1

theorem eachComma_utf8 {items : List Bytes} (h : ∀ t ∈ items, Utf8 t) : Utf8 (eachComma items) ∧ (items ≠ [] → (eachComma items).getLast? = some 44) := by
  induction items with
  | nil => exact ⟨Utf8.nil, fun h => absurd rfl h⟩
  | cons a r ih =>
    obtain ⟨h1, h2⟩ := ih fun t ht => h t (List.mem_cons_of_mem _ ht)
    have e : eachComma (a :: r) = a ++ [44] ++ eachComma r := rfl
    rw [e]
    refine ⟨((h a (List.mem_cons_self ..)).append (Utf8.one (by decide))).append h1, fun _ => ?_⟩
    by_cases hr : r = []
    · subst hr; show (a ++ [44] ++ []).getLast? = some 44; simp
    · rw [List.getLast?_append, h2 hr]; rfl

theorem closeWith_utf8 {o c : UInt8} {items : List Bytes} (ho : o < 128) (hc : c < 128) (h : ∀ t ∈ items, Utf8 t) : Utf8 (closeWith (o :: eachComma items) c) := by
  obtain ⟨h1, h2⟩ := eachComma_utf8 h
  unfold closeWith
  refine Utf8.append ?_ (Utf8.one hc)
  by_cases hi : items = []
  · subst hi; exact Utf8.nil
  · refine dropLast_utf8 (Utf8.cons ho h1) (c := 44) ?_ (by decide)
    rw [List.getLast?_cons, h2 hi]; rfl

/-- The text of a value handed to `MakeArray` or `MakeJson`. -/
def GoVal.utf8 : GoVal → Prop
  | .string s => Utf8 s
  | .other t => Utf8 t
  | _ => True

theorem sprintV_utf8 {v : GoVal} (h : v.utf8) : Utf8 (sprintV v) := by
  cases v with
  | string s => exact h
  | int n => exact itoa_utf8 n
  | bool b => exact boolText_utf8 b
  | nil => exact Utf8.ascii (by decide)
  | other t => exact h

theorem makeObj_utf8 {ms : List (Bytes × Bytes)} (h : ∀ m ∈ ms, Utf8 m.1 ∧ Utf8 m.2) : Utf8 (makeObj ms) := by
  refine closeWith_utf8 (by decide) (by decide) ?_
  intro t ht
  obtain ⟨m, hm, rfl⟩ := List.mem_map.1 ht
  exact member_utf8 (h m hm).1 (h m hm).2

/-- **C116** What the constructors make of UTF-8. -/
theorem C116_make {isFloat : Bytes → Bool} : (∀ vs, (∀ v ∈ vs, GoVal.utf8 v) → Utf8 (MakeArray isFloat (some vs))) ∧
    (∀ vs, (∀ v ∈ vs, Utf8 v) → Utf8 (MakeArrayString isFloat (some vs)) ∧ Utf8 (MakeArrayBytes (some vs))) ∧
    (∀ ns bs, Utf8 (MakeArrayInt (some ns)) ∧ Utf8 (MakeArrayBool (some bs))) ∧
    (∀ ks vs, (∀ k ∈ ks, Utf8 k) → (∀ v ∈ vs, GoVal.utf8 v) → Utf8 (MakeJson isFloat (some ks) vs)) ∧
    (∀ ks vs, (∀ k ∈ ks, Utf8 k) → (∀ v ∈ vs, Utf8 v) → Utf8 (MakeJsonString isFloat (some ks) vs)) ∧
    ∀ es : List (Bytes × Bytes), (∀ e ∈ es, Utf8 e.1 ∧ Utf8 e.2) → Utf8 (MakeJsonWithMap isFloat (some es)) := by
  refine ⟨fun vs h => ?_, fun vs h => ⟨?_, ?_⟩, fun ns bs => ⟨?_, ?_⟩, fun ks vs hk hv => ?_, fun ks vs hk hv => ?_, fun es h => ?_⟩
  · refine closeWith_utf8 (by decide) (by decide) fun t ht => ?_
    obtain ⟨v, hv, rfl⟩ := List.mem_map.1 ht
    exact formatType_utf8 (sprintV_utf8 (h v hv))
  · refine closeWith_utf8 (by decide) (by decide) fun t ht => ?_
    obtain ⟨v, hv, rfl⟩ := List.mem_map.1 ht
    exact formatType_utf8 (h v hv)
  · exact closeWith_utf8 (by decide) (by decide) h
  · refine closeWith_utf8 (by decide) (by decide) fun t ht => ?_
    obtain ⟨v, hv, rfl⟩ := List.mem_map.1 ht
    exact itoa_utf8 v
  · refine closeWith_utf8 (by decide) (by decide) fun t ht => ?_
    obtain ⟨v, hv, rfl⟩ := List.mem_map.1 ht
    exact boolText_utf8 v
  · unfold MakeJson
    split
    · exact Utf8.nil
    · refine makeObj_utf8 fun m hm => ?_
      obtain ⟨h1, h2⟩ := List.of_mem_zip (a := m.1) (b := m.2) hm
      obtain ⟨v, hv', e⟩ := List.mem_map.1 h2
      exact ⟨hk _ h1, e ▸ formatType_utf8 (sprintV_utf8 (hv v hv'))⟩
  · unfold MakeJsonString
    split
    · exact Utf8.nil
    · refine makeObj_utf8 fun m hm => ?_
      obtain ⟨h1, h2⟩ := List.of_mem_zip (a := m.1) (b := m.2) hm
      obtain ⟨v, hv', e⟩ := List.mem_map.1 h2
      exact ⟨hk _ h1, e ▸ formatType_utf8 (hv v hv')⟩
  · refine makeObj_utf8 fun m hm => ?_
    obtain ⟨e, he, rfl⟩ := List.mem_map.1 hm
    exact ⟨(h e he).1, formatType_utf8 (h e he).2⟩

theorem lastE_beside {num : Bytes} : ∀ n, Beside num (lastE num n)
  | 0 => .zero
  | n + 1 => by
    unfold lastE
    split
    · rename_i h; rw [beq_iff_eq] at h; exact .at h (by decide)
    · exact lastE_beside n

theorem floatItems_utf8 : ∀ {l r : List Bytes}, (∀ t ∈ l, Utf8 t) → floatItems l = .ok r → ∀ t ∈ r, Utf8 t
  | [], r, _, h => by cases h; simp
  | x :: xs, r, hl, h => by
    unfold floatItems at h
    cases hx : floatItem x with
    | panic => rw [hx] at h; cases h
    | err _ => rw [hx] at h; cases h
    | ok y =>
      rw [hx] at h
      simp only [Out.bind_ok] at h
      cases hr : floatItems xs with
      | panic => rw [hr] at h; cases h
      | err _ => rw [hr] at h; cases h
      | ok ys =>
        rw [hr] at h
        cases h
        have hy : Utf8 y := by
          unfold floatItem at hx
          simp only at hx
          cases ht : slice x ((lastE x x.length : Int) + 2) x.length with
          | panic => rw [ht] at hx; cases hx
          | err _ => rw [ht] at hx; cases hx
          | ok tail =>
            rw [ht] at hx
            simp only [Out.bind_ok] at hx
            split at hx
            · exact (hl x (List.mem_cons_self ..)).slice hx .zero (by simpa using lastE_beside _)
            · cases hx; exact hl x (List.mem_cons_self ..)
        intro t ht
        rcases List.mem_cons.1 ht with rfl | ht
        · exact hy
        · exact floatItems_utf8 (fun t h => hl t (List.mem_cons_of_mem _ h)) hr t ht

/-- **C116** `MakeArrayFloat`, if `FormatFloat` gives UTF-8. -/
theorem C116_makeFloat {F : Type} {fl : FloatLib F} (hfl : ∀ x, Utf8 (fl.format x)) {vs : List F} {out : Bytes} (h : MakeArrayFloat fl (some vs) = .ok out) : Utf8 out := by
  unfold MakeArrayFloat at h
  simp only at h
  cases hi : floatItems (vs.map fl.format) with
  | panic => rw [hi] at h; cases h
  | err _ => rw [hi] at h; cases h
  | ok items =>
    rw [hi] at h
    cases h
    refine closeWith_utf8 (by decide) (by decide) (floatItems_utf8 ?_ hi)
    intro t ht
    obtain ⟨v, _, rfl⟩ := List.mem_map.1 ht
    exact hfl v

theorem addString_utf8 {isFloat : Bytes → Bool} {json key v out : Bytes} {path : List Bytes} {er : Option Err} (hu : Utf8 json) (hk : Utf8 key) (hv : Utf8 v)
    (h : AddKeyValueString isFloat json key v path = .done out er) : Utf8 out := by
  unfold AddKeyValueString at h
  split at h
  · cases h; exact Utf8.nil
  · exact C116_addKeyValue hu hk (fun x hx => by cases hx; exact formatType_utf8 hv) h

theorem mutateLoop_utf8 {isFloat : Bytes → Bool} {json : Bytes} (hu : Utf8 json) : ∀ {keys : List Bytes} {acc out : Bytes}, (∀ k ∈ keys, Utf8 k) → Utf8 acc →
    mutateLoop isFloat json keys acc = .ok (some out) → Utf8 out
  | [], acc, out, _, ha, h => by cases h; exact ha
  | k :: ks, acc, out, hk, ha, h => by
    unfold mutateLoop GetString at h
    cases hg : Get json [k] with
    | panic => rw [hg] at h; cases h
    | err e =>
      rw [hg] at h
      simp only at h
      split at h
      · cases h
      · rename_i acc' er hadd
        exact mutateLoop_utf8 hu (fun k h => hk k (List.mem_cons_of_mem _ h)) (addString_utf8 ha (hk k (List.mem_cons_self ..)) (formatType_utf8 Utf8.nil) hadd) h
    | ok v =>
      rw [hg] at h
      simp only at h
      split at h
      · cases h
      · rename_i acc' er hadd
        split at h
        · cases h
        · exact mutateLoop_utf8 hu (fun k h => hk k (List.mem_cons_of_mem _ h)) (addString_utf8 ha (hk k (List.mem_cons_self ..)) (formatType_utf8 (C116_get hu hg)) hadd) h

theorem mutateAbsLoop_utf8 {isFloat : Bytes → Bool} {json : Bytes} (hu : Utf8 json) : ∀ {keys : List Bytes} {acc out : Bytes}, (∀ k ∈ keys, Utf8 k) → Utf8 acc →
    mutateAbsLoop isFloat json keys acc = .ok out → Utf8 out
  | [], acc, out, _, ha, h => by cases h; exact ha
  | k :: ks, acc, out, hk, ha, h => by
    unfold mutateAbsLoop GetString at h
    cases hg : Get json [k] with
    | panic => rw [hg] at h; cases h
    | err e => rw [hg] at h; cases h
    | ok v =>
      rw [hg] at h
      simp only [Out.bind_ok] at h
      split at h
      · cases h
      · cases h
      · rename_i acc' hadd
        exact mutateAbsLoop_utf8 hu (fun k h => hk k (List.mem_cons_of_mem _ h)) (addString_utf8 ha (hk k (List.mem_cons_self ..)) (formatType_utf8 (C116_get hu hg)) hadd) h

/-- **C116** `Scheme.MutateJson` and `Scheme.MutateJsonAbs`. -/
theorem C116_scheme {isFloat : Bytes → Bool} {s : Scheme} {json out : Bytes} (hu : Utf8 json) (hs : ∀ k ∈ s.keys, Utf8 k) :
    (s.MutateJson isFloat json = .ok (some out) → Utf8 out) ∧ (s.MutateJsonAbs isFloat json = .ok out → Utf8 out) :=
  ⟨mutateLoop_utf8 hu hs (Utf8.ascii (by decide)), mutateAbsLoop_utf8 hu hs (Utf8.ascii (by decide))⟩

/-- **C116** `stripQuotes`. -/
theorem C116_stripQuotes {s : Bytes} (hu : Utf8 s) : Utf8 (stripQuotes s) := by
  unfold stripQuotes
  split
  · split
    · rename_i hl hq
      simp only [Bool.and_eq_true, beq_iff_eq] at hq
      obtain ⟨h0, h1⟩ := hq
      rw [List.head?_eq_getElem?] at h0
      rw [List.getLast?_eq_getElem?] at h1
      have := hu.mid (Beside.after h0 (by decide)) (Beside.at h1 (by decide))
      rwa [List.dropLast_eq_take, List.length_drop, show s.length - 1 - 1 = s.length - 1 - (0 + 1) by omega]
    · exact hu
  · exact hu

example : stripQuotes (str "\"é\"") = str "é" ∧ stripQuotes (str "\"é") = str "\"é" := by decide +kernel

/-! Cases, on texts with letters of two and three bytes. -/

example : Flatten (str "{ \"é\" : \"日 本\" }") = str "{\"é\":\"日 本\"}" ∧ Indent (str "{\"é\":\"日\"}") = .ok (str "{\n\t\"é\": \"日\"\n}") ∧
    GetAll (str "{\"é\":\"日\",\"b\":\"ö\"}") [str "b", str "é"] [] = .ok [str "ö", str "日"] ∧
    GetAllMap (str "{\"é\":\"日\",\"b\":\"ö\"}") [str "b", str "é"] [] = .ok [(str "b", str "ö"), (str "é", str "日")] ∧
    GetMap (str "{\"é\":\"日\",\"b\":\"ö\"}") [] = .ok (some [(str "é", str "日"), (str "b", str "ö")]) := by decide +kernel

example : MakeArrayString (fun _ => false) (some [str "é", str "日本"]) = str "[\"é\",\"日本\"]" ∧
    MakeJson (fun _ => false) (some [str "é"]) [.string (str "日")] = str "{\"é\":\"日\"}" ∧
    (MakeScheme [str "é"]).MutateJson (fun _ => false) (str "{\"a\":1,\"é\":\"日\"}") = .ok (some (str "{\"é\":\"日\"}")) ∧
    AddKeyValueInt32 (str "{\"é\":1}") (str "ö") 33 [] = .done (str "{\"é\":1,\"ö\":11}") none := by decide +kernel

end Jin
