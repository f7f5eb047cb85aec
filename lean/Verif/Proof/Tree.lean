import Verif.Spec.Edit
import Verif.Proof.Find
/-!
# Proof.Tree — algebra of the specification's tree operations
-/

namespace Jin
open Spec

/-! ### strip -/

theorem stripElems_eq (es : List (Elem Json)) : stripElems es = es.map fun e => ⟨[], e.v.strip, []⟩ := by
  induction es with
  | nil => rfl
  | cons e es ih => rw [stripElems, ih]; rfl

theorem stripMembers_eq (ms : List (Member Json)) :
    stripMembers ms = ms.map fun m => ⟨[], m.key, [], [], m.v.strip, []⟩ := by
  induction ms with
  | nil => rfl
  | cons e es ih => rw [stripMembers, ih]; rfl

theorem child_strip (j : Json) (p : Text) : j.strip.child? p = (j.child? p).map Json.strip := by
  cases j with
  | lit t => rfl
  | str t => rfl
  | arr g es =>
    simp only [Json.strip, Json.child?, stripElems_eq]
    cases readIndex p with
    | none => rfl
    | some n => simp [Function.comp_def]
  | obj g ms =>
    simp only [Json.strip, Json.child?, stripMembers_eq, memberIdx, List.findIdx?_map, Function.comp_def]
    cases List.findIdx? (fun m => m.key == p) ms with
    | none => rfl
    | some n => simp [Function.comp_def]

theorem get_strip (path : List Text) : ∀ j : Json, j.strip.get? path = (j.get? path).map Json.strip := by
  induction path with
  | nil => intro j; rfl
  | cons p ps ih =>
    intro j
    rw [Json.get?, Json.get?, child_strip]
    cases j.child? p with
    | none => rfl
    | some c => simpa using ih c

theorem content_strip {j : Json} (h : j.isContainer = false) : j.strip.content = j.content := by
  cases j <;> simp_all [Json.strip, Json.isContainer]

theorem isContainer_strip (j : Json) : j.strip.isContainer = j.isContainer := by
  cases j <;> rfl

/-! ### child and update -/

theorem memberIdx_modify (ms : List (Member Json)) (n : Nat) (g : Json → Json) (k : Text) :
    memberIdx (ms.modify n fun m => { m with v := g m.v }) k = memberIdx ms k := by
  unfold memberIdx
  induction ms generalizing n with
  | nil => simp
  | cons m ms ih =>
    cases n with
    | zero => simp [List.findIdx?_cons]
    | succ n => rw [List.modify_succ_cons, List.findIdx?_cons, List.findIdx?_cons, ih]

theorem child_updChild {j : Json} {p : Text} {c : Json} (h : j.child? p = some c) (g : Json → Json) :
    (j.updChild p g).child? p = some (g c) := by
  cases j with
  | lit t => simp [Json.child?] at h
  | str t => simp [Json.child?] at h
  | arr gp es =>
    simp only [Json.child?, Option.bind_eq_some_iff, Option.map_eq_some_iff] at h
    obtain ⟨n, hn, e, he, rfl⟩ := h
    simp [Json.updChild, hn, Json.child?, List.getElem?_modify, he]
  | obj gp ms =>
    simp only [Json.child?, Option.bind_eq_some_iff, Option.map_eq_some_iff] at h
    obtain ⟨n, hn, e, he, rfl⟩ := h
    simp [Json.updChild, hn, Json.child?, memberIdx_modify, List.getElem?_modify, he]

theorem slot_updChild (j : Json) (p q : Text) (g : Json → Json) : (j.updChild p g).slot? q = j.slot? q := by
  cases j with
  | lit t => rfl
  | str t => rfl
  | arr gp es => simp only [Json.updChild]; split <;> simp [Json.slot?]
  | obj gp ms => simp only [Json.updChild]; split <;> simp [Json.slot?, memberIdx_modify]

/-- The value in a slot. -/
def valAt (j : Json) (n : Nat) : Option Json :=
  match j with
  | .arr _ es => es[n]?.map Elem.v
  | .obj _ ms => ms[n]?.map Member.v
  | _ => none

/-- Update of a slot. -/
def updAt (j : Json) (n : Nat) (g : Json → Json) : Json :=
  match j with
  | .arr gap es => .arr gap (es.modify n fun e => { e with v := g e.v })
  | .obj gap ms => .obj gap (ms.modify n fun m => { m with v := g m.v })
  | j => j

theorem child_slot (j : Json) (p : Text) : j.child? p = (j.slot? p).bind (valAt j) := by
  cases j with
  | lit t => rfl
  | str t => rfl
  | arr gp es =>
    simp only [Json.child?, Json.slot?]
    cases readIndex p with
    | none => rfl
    | some n =>
      by_cases h : n < es.length
      · simp [Option.filter, h, valAt]
      · simp [Option.filter, h]
  | obj gp ms => rfl

theorem updChild_slot {j : Json} {p : Text} {n : Nat} (h : j.slot? p = some n) (g : Json → Json) :
    j.updChild p g = updAt j n g := by
  cases j with
  | lit t => simp [Json.slot?] at h
  | str t => simp [Json.slot?] at h
  | arr gp es =>
    simp only [Json.slot?, Option.filter_eq_some_iff] at h
    simp [Json.updChild, h.1, updAt]
  | obj gp ms => simp only [Json.slot?] at h; simp [Json.updChild, h, updAt]

theorem slot_updAt (j : Json) (n : Nat) (g : Json → Json) (q : Text) : (updAt j n g).slot? q = j.slot? q := by
  cases j <;> simp [updAt, Json.slot?, memberIdx_modify]

theorem valAt_updAt_same {j : Json} {n : Nat} {c : Json} (h : valAt j n = some c) (g : Json → Json) :
    valAt (updAt j n g) n = some (g c) := by
  cases j with
  | lit t => simp [valAt] at h
  | str t => simp [valAt] at h
  | arr gp es =>
    simp only [valAt, Option.map_eq_some_iff] at h; obtain ⟨e, he, rfl⟩ := h
    simp [updAt, valAt, he]
  | obj gp es =>
    simp only [valAt, Option.map_eq_some_iff] at h; obtain ⟨e, he, rfl⟩ := h
    simp [updAt, valAt, he]

theorem valAt_updAt_ne {j : Json} {n m : Nat} (h : n ≠ m) (g : Json → Json) :
    valAt (updAt j n g) m = valAt j m := by
  cases j <;> simp [updAt, valAt, h]

theorem modify_comm {α : Type} (l : List α) {n m : Nat} (h : n ≠ m) (f g : α → α) :
    (l.modify n f).modify m g = (l.modify m g).modify n f := by
  apply List.ext_getElem?
  intro i
  simp only [List.getElem?_modify]
  cases l[i]? with
  | none => rfl
  | some x =>
    by_cases h1 : n = i <;> by_cases h2 : m = i <;> simp [h1, h2]
    omega

theorem updAt_comm (j : Json) {n m : Nat} (h : n ≠ m) (f g : Json → Json) :
    updAt (updAt j n f) m g = updAt (updAt j m g) n f := by
  cases j <;> simp [updAt, modify_comm _ h]

theorem modify_modify {α : Type} (l : List α) (n : Nat) (f g : α → α) :
    (l.modify n f).modify n g = l.modify n (g ∘ f) := by
  apply List.ext_getElem?
  intro i
  simp only [List.getElem?_modify]
  cases l[i]? with
  | none => rfl
  | some x => by_cases h1 : n = i <;> simp [h1]

theorem updAt_updAt (j : Json) (n : Nat) (f g : Json → Json) :
    updAt (updAt j n f) n g = updAt j n (g ∘ f) := by
  cases j <;> simp [updAt, modify_modify, Function.comp_def]

theorem modify_congr_at {α : Type} {l : List α} {n : Nat} {x : α} (h : l[n]? = some x) {f g : α → α} (hfg : f x = g x) :
    l.modify n f = l.modify n g := by
  apply List.ext_getElem?
  intro i
  simp only [List.getElem?_modify]
  by_cases h1 : n = i
  · subst h1; simp [h, hfg]
  · simp [h1]

theorem updAt_congr {j : Json} {n : Nat} {c : Json} (h : valAt j n = some c) {f g : Json → Json} (hfg : f c = g c) :
    updAt j n f = updAt j n g := by
  cases j with
  | lit t => rfl
  | str t => rfl
  | arr gp es =>
    simp only [valAt, Option.map_eq_some_iff] at h; obtain ⟨e, he, rfl⟩ := h
    simp only [updAt]; rw [modify_congr_at he]; rw [hfg]
  | obj gp es =>
    simp only [valAt, Option.map_eq_some_iff] at h; obtain ⟨e, he, rfl⟩ := h
    simp only [updAt]; rw [modify_congr_at he]; rw [hfg]

/-- A child sits in a slot. -/
theorem child_some {j : Json} {p : Text} {c : Json} (h : j.child? p = some c) :
    ∃ n, j.slot? p = some n ∧ valAt j n = some c := by
  rw [child_slot, Option.bind_eq_some_iff] at h; exact h

theorem get_cons {j : Json} {p : Text} {ps : List Text} {w : Json} (h : j.get? (p :: ps) = some w) :
    ∃ c, j.child? p = some c ∧ c.get? ps = some w := by
  rw [Json.get?, Option.bind_eq_some_iff] at h; exact h

/-! ### Paths of an updated tree -/

/-- Reading where one wrote. -/
theorem get_upd (path : List Text) : ∀ {j w : Json}, j.get? path = some w → ∀ f : Json → Json,
    (j.upd f path).get? path = some (f w) := by
  induction path with
  | nil => intro j w h f; simp only [Json.get?, Option.some.injEq] at h; subst h; rfl
  | cons p ps ih =>
    intro j w h f
    obtain ⟨c, hc, hw⟩ := get_cons h
    rw [Json.upd, Json.get?, child_updChild hc]
    exact ih hw f

/-- Reading below where one wrote. -/
theorem get_upd_append (path : List Text) : ∀ {j w : Json}, j.get? path = some w → ∀ (f : Json → Json) (q : List Text),
    (j.upd f path).get? (path ++ q) = (f w).get? q := by
  induction path with
  | nil => intro j w h f q; simp only [Json.get?, Option.some.injEq] at h; subst h; rfl
  | cons p ps ih =>
    intro j w h f q
    obtain ⟨c, hc, hw⟩ := get_cons h
    rw [Json.upd, List.cons_append, Json.get?, child_updChild hc]
    exact ih hw f q

theorem get_append (path q : List Text) : ∀ j : Json, j.get? (path ++ q) = (j.get? path).bind fun w => w.get? q := by
  induction path with
  | nil => intro j; rfl
  | cons p ps ih =>
    intro j
    rw [List.cons_append, Json.get?, Json.get?]
    cases j.child? p with
    | none => rfl
    | some c => exact ih c

/-- Updates compose. -/
theorem upd_upd (path : List Text) : ∀ {j w : Json}, j.get? path = some w → ∀ f g : Json → Json,
    (j.upd f path).upd g path = j.upd (g ∘ f) path := by
  induction path with
  | nil => intro j w h f g; rfl
  | cons p ps ih =>
    intro j w h f g
    obtain ⟨c, hc, hw⟩ := get_cons h
    obtain ⟨n, hn, hv⟩ := child_some hc
    simp only [Json.upd]
    rw [updChild_slot hn, updChild_slot (by rw [slot_updAt]; exact hn), updAt_updAt, updChild_slot hn]
    exact updAt_congr hv (ih hw f g)

/-- Updating below an update. -/
theorem upd_append (p q : List Text) : ∀ (j : Json) (f : Json → Json),
    j.upd f (p ++ q) = j.upd (fun w => w.upd f q) p := by
  induction p with
  | nil => intro j f; rfl
  | cons p ps ih => intro j f; rw [List.cons_append, Json.upd, Json.upd]; congr 1; funext c; exact ih c f

/-- Writing back what is there changes nothing. -/
theorem upd_self (path : List Text) : ∀ {j w : Json}, j.get? path = some w → ∀ f : Json → Json, f w = w →
    j.upd f path = j := by
  induction path with
  | nil => intro j w h f hf; simp only [Json.get?, Option.some.injEq] at h; subst h; exact hf
  | cons p ps ih =>
    intro j w h f hf
    obtain ⟨c, hc, hw⟩ := get_cons h
    obtain ⟨n, hn, hv⟩ := child_some hc
    rw [Json.upd, updChild_slot hn, updAt_congr hv (g := id) (ih hw f hf)]
    cases j <;> simp [updAt]
    · exact List.modify_id n _
    · exact List.modify_id n _

theorem upd_congr (path : List Text) : ∀ {j w : Json}, j.get? path = some w → ∀ {f g : Json → Json}, f w = g w →
    j.upd f path = j.upd g path := by
  induction path with
  | nil => intro j w h f g hf; simp only [Json.get?, Option.some.injEq] at h; subst h; exact hf
  | cons p ps ih =>
    intro j w h f g hf
    obtain ⟨c, hc, hw⟩ := get_cons h
    obtain ⟨n, hn, hv⟩ := child_some hc
    rw [Json.upd, Json.upd, updChild_slot hn, updChild_slot hn]
    exact updAt_congr hv (ih hw hf)

/-! ### Diverging paths -/

theorem diverge_cons {j : Json} {p q : Text} {ps qs : List Text} (h : j.diverge (p :: ps) (q :: qs)) :
    ∃ a b, j.slot? p = some a ∧ j.slot? q = some b ∧ (a ≠ b ∨ (a = b ∧ ∃ c, valAt j a = some c ∧ c.diverge ps qs)) := by
  rw [Json.diverge] at h
  cases ha : j.slot? p with
  | none => simp [ha] at h
  | some a =>
    cases hb : j.slot? q with
    | none => simp [ha, hb] at h
    | some b =>
      simp only [ha, hb] at h
      refine ⟨a, b, rfl, rfl, ?_⟩
      by_cases hab : a = b
      · simp only [hab, if_true] at h
        right
        refine ⟨hab, ?_⟩
        rw [child_slot, ha] at h
        simp only [Option.bind_some] at h
        cases hv : valAt j a with
        | none => simp [hv] at h
        | some c => simp only [hv] at h; exact ⟨c, rfl, h⟩
      · exact Or.inl hab

theorem diverge_of {j : Json} {p q : Text} {ps qs : List Text} {a b : Nat} (ha : j.slot? p = some a)
    (hb : j.slot? q = some b) (h : a ≠ b ∨ (a = b ∧ ∃ c, valAt j a = some c ∧ c.diverge ps qs)) :
    j.diverge (p :: ps) (q :: qs) := by
  rw [Json.diverge, ha, hb]
  rcases h with h | ⟨rfl, c, hc, hd⟩
  · simp [h]
  · rw [child_slot, ha]; simpa [hc] using hd

theorem diverge_comm (p : List Text) : ∀ {q : List Text} {j : Json}, j.diverge p q → j.diverge q p := by
  induction p with
  | nil => intro q j h; simp [Json.diverge] at h
  | cons p ps ih =>
    intro q j h
    cases q with
    | nil => simp [Json.diverge] at h
    | cons q qs =>
      obtain ⟨a, b, ha, hb, h⟩ := diverge_cons h
      refine diverge_of hb ha ?_
      rcases h with h | ⟨rfl, c, hc, hd⟩
      · exact Or.inl (Ne.symm h)
      · exact Or.inr ⟨rfl, c, hc, ih hd⟩

/-- An update does not reach a diverging path. -/
theorem get_upd_diverge (p : List Text) : ∀ {q : List Text} {j : Json}, j.diverge p q → ∀ f : Json → Json,
    (j.upd f p).get? q = j.get? q := by
  induction p with
  | nil => intro q j h; simp [Json.diverge] at h
  | cons p ps ih =>
    intro q j h f
    cases q with
    | nil => simp [Json.diverge] at h
    | cons q qs =>
      obtain ⟨a, b, ha, hb, h⟩ := diverge_cons h
      rw [Json.upd, updChild_slot ha, Json.get?, Json.get?, child_slot, slot_updAt, hb, child_slot, hb]
      simp only [Option.bind_some]
      rcases h with h | ⟨rfl, c, hc, hd⟩
      · rw [valAt_updAt_ne h]
      · rw [valAt_updAt_same hc, hc]; exact ih hd f

/-- Diverging paths still diverge after an update at one of them. -/
theorem diverge_upd (p : List Text) : ∀ {q : List Text} {j : Json}, j.diverge p q → ∀ f : Json → Json,
    (j.upd f p).diverge p q := by
  induction p with
  | nil => intro q j h; simp [Json.diverge] at h
  | cons p ps ih =>
    intro q j h f
    cases q with
    | nil => simp [Json.diverge] at h
    | cons q qs =>
      obtain ⟨a, b, ha, hb, h⟩ := diverge_cons h
      rw [Json.upd, updChild_slot ha]
      refine diverge_of (a := a) (b := b) (by rw [slot_updAt]; exact ha) (by rw [slot_updAt]; exact hb) ?_
      rcases h with h | ⟨rfl, c, hc, hd⟩
      · exact Or.inl h
      · exact Or.inr ⟨rfl, _, valAt_updAt_same hc _, ih hd f⟩

/-- Updates at diverging paths commute. -/
theorem upd_comm (p : List Text) : ∀ {q : List Text} {j : Json}, j.diverge p q → ∀ f g : Json → Json,
    (j.upd f p).upd g q = (j.upd g q).upd f p := by
  induction p with
  | nil => intro q j h; simp [Json.diverge] at h
  | cons p ps ih =>
    intro q j h f g
    cases q with
    | nil => simp [Json.diverge] at h
    | cons q qs =>
      obtain ⟨a, b, ha, hb, h⟩ := diverge_cons h
      simp only [Json.upd]
      rw [updChild_slot ha, updChild_slot hb, updChild_slot (by rw [slot_updAt]; exact hb),
        updChild_slot (by rw [slot_updAt]; exact ha)]
      rcases h with h | ⟨rfl, c, hc, hd⟩
      · exact updAt_comm j h _ _
      · rw [updAt_updAt, updAt_updAt]
        exact updAt_congr hc (ih hd f g)

/-! ### Well-formedness -/

theorem wfElems_iff {es : List (Elem Json)} : wfElems es ↔ ∀ e ∈ es, Ws e.l ∧ e.v.wf ∧ Ws e.r := by
  induction es with
  | nil => simp [wfElems]
  | cons e es ih => rw [wfElems_cons, ih]; simp [and_assoc]

theorem wfMembers_iff {ms : List (Member Json)} :
    wfMembers ms ↔ ∀ m ∈ ms, Ws m.l ∧ strOk m.key ∧ Ws m.m ∧ Ws m.l2 ∧ m.v.wf ∧ Ws m.r := by
  induction ms with
  | nil => simp [wfMembers]
  | cons e es ih => rw [wfMembers_cons, ih]; simp [and_assoc]

theorem mem_modify {α : Type} {l : List α} {n : Nat} {f : α → α} {x : α} (h : x ∈ l.modify n f) :
    x ∈ l ∨ ∃ y, l[n]? = some y ∧ x = f y := by
  rw [List.mem_iff_getElem?] at h
  obtain ⟨i, hi⟩ := h
  rw [List.getElem?_modify] at hi
  simp only [Option.map_eq_map, Option.map_eq_some_iff] at hi
  obtain ⟨y, hy, rfl⟩ := hi
  by_cases hn : n = i
  · subst hn; right; exact ⟨y, hy, by simp⟩
  · left; simp only [hn, if_false]; exact List.mem_of_getElem? hy

theorem valAt_wf {j : Json} {n : Nat} {c : Json} (hj : j.wf) (h : valAt j n = some c) : c.wf := by
  cases j with
  | lit t => simp [valAt] at h
  | str t => simp [valAt] at h
  | arr gp es =>
    simp only [valAt, Option.map_eq_some_iff] at h; obtain ⟨e, he, rfl⟩ := h
    exact (wfElems_iff.1 (wf_arr.1 hj).2 e (List.mem_of_getElem? he)).2.1
  | obj gp es =>
    simp only [valAt, Option.map_eq_some_iff] at h; obtain ⟨e, he, rfl⟩ := h
    exact (wfMembers_iff.1 (wf_obj.1 hj).2 e (List.mem_of_getElem? he)).2.2.2.2.1

theorem updAt_wf {j : Json} {n : Nat} {c : Json} (hj : j.wf) (h : valAt j n = some c) {f : Json → Json}
    (hf : (f c).wf) : (updAt j n f).wf := by
  cases j with
  | lit t => simp [valAt] at h
  | str t => simp [valAt] at h
  | arr gp es =>
    simp only [valAt, Option.map_eq_some_iff] at h; obtain ⟨e, he, rfl⟩ := h
    rw [wf_arr] at hj
    rw [updAt, wf_arr]
    refine ⟨hj.1, wfElems_iff.2 ?_⟩
    intro x hx
    rcases mem_modify hx with hx | ⟨y, hy, rfl⟩
    · exact wfElems_iff.1 hj.2 x hx
    · rw [he] at hy; cases hy
      have := wfElems_iff.1 hj.2 e (List.mem_of_getElem? he)
      exact ⟨this.1, hf, this.2.2⟩
  | obj gp es =>
    simp only [valAt, Option.map_eq_some_iff] at h; obtain ⟨e, he, rfl⟩ := h
    rw [wf_obj] at hj
    rw [updAt, wf_obj]
    refine ⟨hj.1, wfMembers_iff.2 ?_⟩
    intro x hx
    rcases mem_modify hx with hx | ⟨y, hy, rfl⟩
    · exact wfMembers_iff.1 hj.2 x hx
    · rw [he] at hy; cases hy
      have := wfMembers_iff.1 hj.2 e (List.mem_of_getElem? he)
      exact ⟨this.1, this.2.1, this.2.2.1, this.2.2.2.1, hf, this.2.2.2.2.2⟩

theorem get_wf (path : List Text) : ∀ {j w : Json}, j.wf → j.get? path = some w → w.wf := by
  induction path with
  | nil => intro j w hj h; simp only [Json.get?, Option.some.injEq] at h; subst h; exact hj
  | cons p ps ih =>
    intro j w hj h
    obtain ⟨c, hc, hw⟩ := get_cons h
    obtain ⟨n, hn, hv⟩ := child_some hc
    exact ih (valAt_wf hj hv) hw

theorem upd_wf (path : List Text) : ∀ {j w : Json}, j.wf → j.get? path = some w → ∀ {f : Json → Json}, (f w).wf →
    (j.upd f path).wf := by
  induction path with
  | nil => intro j w hj h f hf; simp only [Json.get?, Option.some.injEq] at h; subst h; exact hf
  | cons p ps ih =>
    intro j w hj h f hf
    obtain ⟨c, hc, hw⟩ := get_cons h
    obtain ⟨n, hn, hv⟩ := child_some hc
    rw [Json.upd, updChild_slot hn]
    exact updAt_wf hj hv (ih (valAt_wf hj hv) hw hf)

theorem doc_upd_wf {d : Doc} {path : List Text} {w : Json} (hd : d.wf) (h : d.get? path = some w) {f : Json → Json}
    (hf : (f w).wf) : (d.upd f path).wf := by
  simp only [Doc.wf, Bool.and_eq_true] at hd ⊢
  exact ⟨⟨hd.1.1, upd_wf path hd.1.2 h hf⟩, hd.2⟩

end Jin
