import Verif.Props.Format
import Verif.Props.Delete
import Verif.Props.Add
import Verif.Props.SetKey
import Verif.Props.Set
import Verif.Props.Types
import Verif.Props.Iterate
/-!
# Property C125: mutators do not depend on formatting

Two documents with the same tokens (`strip`) give, after the same mutation, documents with the same tokens: `Flatten` gives the
same text for both.
-/

namespace Jin
open Spec

/-! ### `strip` and updates -/

theorem updChild_strip {f g : Json → Json} (h : ∀ j, (f j).strip = g j.strip) (j : Json) (p : Text) :
    (j.updChild p f).strip = j.strip.updChild p g := by
  cases j with
  | lit t => rfl
  | str t => rfl
  | arr gap es =>
    simp only [Json.updChild, Json.strip]
    cases readIndex p with
    | none => rfl
    | some n =>
      simp only [Json.strip, stripElems_eq]
      congr 1
      apply List.ext_getElem?
      intro i
      simp only [List.getElem?_map, List.getElem?_modify]
      split <;> cases es[i]? <;> simp [h]
  | obj gap ms =>
    have hm : memberIdx (stripMembers ms) p = memberIdx ms p := by
      simp only [stripMembers_eq, memberIdx, List.findIdx?_map, Function.comp_def]
    simp only [Json.updChild, Json.strip, hm]
    cases memberIdx ms p with
    | none => rfl
    | some n =>
      simp only [Json.strip, stripMembers_eq]
      congr 1
      apply List.ext_getElem?
      intro i
      simp only [List.getElem?_map, List.getElem?_modify]
      split <;> cases ms[i]? <;> simp [h]

theorem set_strip (x : Json) (p : List Text) : ∀ j : Json, (j.set p x).strip = j.strip.set p x.strip := by
  induction p with
  | nil => intro j; rfl
  | cons q qs ih => intro j; exact updChild_strip (f := fun c => c.set qs x) (g := fun c => c.set qs x.strip) ih j q

/-- Two values at the same place of two documents with the same tokens. -/
theorem strip_of_get {a b : Json} (hs : a.strip = b.strip) {p : List Text} {w : Json} (h : a.get? p = some w) :
    ∃ w', b.get? p = some w' ∧ w'.strip = w.strip := by
  have e := congrArg (fun j => j.get? p) hs
  simp only [get_strip] at e
  rw [h] at e
  obtain ⟨w', h1, h2⟩ := Option.map_eq_some_iff.1 e.symm
  exact ⟨w', h1, h2⟩

/-- Key and tokens of an entry. -/
def Spec.Entry.bare (e : Entry) : Option Text × Json := (e.key, e.val.strip)

theorem bare_strip (w : Json) : w.strip.entries.map Entry.bare = w.entries.map Entry.bare := by
  cases w with
  | lit t => rfl
  | str t => rfl
  | arr g es => simp [Json.strip, Json.entries, stripElems_eq, Function.comp_def, Entry.bare, Entry.key, Entry.val, strip_strip]
  | obj g ms => simp [Json.strip, Json.entries, stripMembers_eq, Function.comp_def, Entry.bare, Entry.key, Entry.val, strip_strip]

theorem kind_strip (w : Json) : w.strip.kind = w.kind := by cases w <;> rfl

theorem size_strip (w : Json) : w.strip.size = w.size := by
  cases w <;> simp [Json.strip, Json.size, stripElems_eq, stripMembers_eq]

/-- The tokens of a container are its kind, its keys and the tokens of its values. -/
theorem strip_of_entries {a b : Json} (hk : a.kind = b.kind) (hc : a.kind ≠ .scalar) (he : a.entries.map Entry.bare = b.entries.map Entry.bare) :
    a.strip = b.strip := by
  cases a with
  | lit t => exact absurd rfl hc
  | str t => exact absurd rfl hc
  | arr g es =>
    cases b with
    | arr g' es' =>
      simp only [Json.strip, stripElems_eq]
      congr 1
      simp only [Json.entries, List.map_map] at he
      apply List.ext_getElem?
      intro i
      have := congrArg (fun l => l[i]?) he
      simp only [List.getElem?_map] at this ⊢
      cases h1 : es[i]? <;> cases h2 : es'[i]? <;> simp_all [Entry.bare, Entry.key, Entry.val]
    | _ => cases hk
  | obj g ms =>
    cases b with
    | obj g' ms' =>
      simp only [Json.strip, stripMembers_eq]
      congr 1
      simp only [Json.entries, List.map_map] at he
      apply List.ext_getElem?
      intro i
      have := congrArg (fun l => l[i]?) he
      simp only [List.getElem?_map] at this ⊢
      cases h1 : ms[i]? <;> cases h2 : ms'[i]? <;> simp_all [Entry.bare, Entry.key, Entry.val]
    | _ => cases hk

theorem bare_of_strip {a b : Json} (h : a.strip = b.strip) : a.entries.map Entry.bare = b.entries.map Entry.bare := by
  rw [← bare_strip a, h, bare_strip]

theorem kind_of_strip {a b : Json} (h : a.strip = b.strip) : a.kind = b.kind := by rw [← kind_strip a, h, kind_strip]

theorem slot_of_strip {a b : Json} (h : a.strip = b.strip) (q : Text) : a.slot? q = b.slot? q := by
  have hs : ∀ j : Json, j.strip.slot? q = j.slot? q := by
    intro j
    cases j with
    | lit t => rfl
    | str t => rfl
    | arr g es => simp [Json.strip, Json.slot?, stripElems_eq]
    | obj g ms => simp only [Json.strip, Json.slot?, stripMembers_eq, memberIdx, List.findIdx?_map, Function.comp_def]
  rw [← hs a, h, hs]

theorem flatten_set {d₁ d₂ : Doc} {p : List Text} {x y : Json} (h₁ : (d₁.set p x).wf) (h₂ : (d₂.set p y).wf)
    (hs : d₁.root.strip = d₂.root.strip) (hx : x.strip = y.strip) : Flatten (d₁.set p x).render = Flatten (d₂.set p y).render := by
  rw [flatten_ok h₁, flatten_ok h₂]
  simp only [Doc.set, set_strip, hs, hx]

/-! ### The property -/

variable (d₁ d₂ : Doc) (p : List Text)

/-- **C125** `Set` of values with the same tokens. -/
theorem C125_set (w v₁ v₂ : Json) (h₁ : d₁.wf) (h₂ : d₂.wf) (hs : d₁.root.strip = d₂.root.strip) (hp : p ≠ []) (h : d₁.get? p = some w)
    (hv₁ : v₁.wf) (hv₂ : v₂.wf) (hv : v₁.strip = v₂.strip) :
    ∃ t₁ t₂, Set d₁.render v₁.render p = .done t₁ none ∧ Set d₂.render v₂.render p = .done t₂ none ∧ Flatten t₁ = Flatten t₂ := by
  obtain ⟨w', h', -⟩ := strip_of_get hs h
  obtain ⟨a1, a2, -⟩ := C08_get_after_set d₁ p w v₁ h₁ hp h hv₁
  obtain ⟨b1, b2, -⟩ := C08_get_after_set d₂ p w' v₂ h₂ hp h' hv₂
  exact ⟨_, _, a1, b1, flatten_set a2 b2 hs hv⟩

/-- **C125** `Set` of a flattened value in a flattened document gives the flattened result. -/
theorem C125_set_flatten (d : Doc) (w v : Json) (hd : d.wf) (hp : p ≠ []) (h : d.get? p = some w) (hv : v.wf) :
    ∃ t, Set d.render v.render p = .done t none ∧ Set (Flatten d.render) (Flatten v.render) p = .done (Flatten t) none := by
  obtain ⟨a1, a2, -⟩ := C08_get_after_set d p w v hd hp h hv
  obtain ⟨w', h', -⟩ := strip_of_get (strip_strip d.root).symm h
  obtain ⟨b1, b2, -⟩ := C08_get_after_set ⟨[], d.root.strip, []⟩ p w' v.strip (C40_flatten_wf d hd) hp h' (strip_wf _ hv)
  refine ⟨_, a1, ?_⟩
  have hf : Flatten v.render = v.strip.render := by
    have := flatten_ok (d := ⟨[], v, []⟩) (doc_wf.2 ⟨rfl, hv, rfl⟩)
    simpa [Doc.render] using this
  rw [C40_flatten d hd, hf, b1, flatten_ok a2]
  simp [Doc.render, Doc.set, set_strip]

/-- **C125** `Delete`. -/
theorem C125_delete (q : Text) (c : Json) (h₁ : d₁.wf) (h₂ : d₂.wf) (hs : d₁.root.strip = d₂.root.strip) (h : d₁.get? (p ++ [q]) = some c) :
    ∃ t₁ t₂, Delete d₁.render (p ++ [q]) = .done t₁ none ∧ Delete d₂.render (p ++ [q]) = .done t₂ none ∧ Flatten t₁ = Flatten t₂ := by
  obtain ⟨w, hw⟩ : ∃ w, d₁.get? p = some w := by
    cases e : d₁.get? p with
    | some w => exact ⟨w, rfl⟩
    | none => unfold Doc.get? at h e; rw [get_append, e] at h; cases h
  obtain ⟨w', hw', e⟩ := strip_of_get hs hw
  obtain ⟨c', hc', -⟩ := strip_of_get hs h
  obtain ⟨n, x, s1, -, a1, a2, a3, a4⟩ := C16_delete_exact d₁ p q w c h₁ hw h
  obtain ⟨m, y, s2, -, b1, b2, b3, b4⟩ := C16_delete_exact d₂ p q w' c' h₂ hw' hc'
  rw [slot_of_strip e q, s1] at s2
  injection s2 with s2
  subst s2
  refine ⟨_, _, a1, b1, flatten_set a2 b2 hs (strip_of_entries ?_ ?_ ?_)⟩
  · rw [a3, b3, kind_of_strip e]
  · rw [a3]; intro hk
    cases w with
    | lit t => cases s1
    | str t => cases s1
    | _ => cases hk
  · have he : ∀ (l : List Entry), (l.eraseIdx n).map Entry.bare = (l.map Entry.bare).eraseIdx n := by
      intro l
      simp [List.eraseIdx_eq_take_drop_succ, List.map_take, List.map_drop]
    rw [a4, b4, he, he, bare_of_strip e]

/-- **C125** `Add`. -/
theorem C125_add (g : Text) (es : List (Elem Json)) (v₁ v₂ : Json) (h₁ : d₁.wf) (h₂ : d₂.wf) (hs : d₁.root.strip = d₂.root.strip)
    (h : d₁.get? p = some (.arr g es)) (hv₁ : v₁.wf) (hv₂ : v₂.wf) (hv : v₁.strip = v₂.strip) :
    ∃ t₁ t₂, Add d₁.render v₁.render p = .done t₁ none ∧ Add d₂.render v₂.render p = .done t₂ none ∧ Flatten t₁ = Flatten t₂ := by
  obtain ⟨w', hw', e⟩ := strip_of_get hs h
  cases w' with
  | arr g' es' =>
    obtain ⟨x, a1, a2, a3, a4, -⟩ := C20_add d₁ p g es v₁ h₁ h hv₁
    obtain ⟨y, b1, b2, b3, b4, -⟩ := C20_add d₂ p g' es' v₂ h₂ hw' hv₂
    refine ⟨_, _, a1, b1, flatten_set a2 b2 hs (strip_of_entries (a3.trans b3.symm) (by rw [a3]; decide) ?_)⟩
    rw [a4, b4, List.map_append, List.map_append, bare_of_strip e]
    simp [Entry.bare, Entry.key, Entry.val, hv]
  | _ => cases e

/-- **C125, part**: `Insert` before an element that is not the last one, or the only one. -/
theorem C125_insert_partial (g : Text) (es : List (Elem Json)) (n : Nat) (v₁ v₂ : Json) (h₁ : d₁.wf) (h₂ : d₂.wf)
    (hs : d₁.root.strip = d₂.root.strip) (h : d₁.get? p = some (.arr g es)) (hn : n < es.length) (hb : (n : Int) ≤ 9223372036854775807)
    (hok : n + 1 < es.length ∨ n = 0) (hv₁ : v₁.wf) (hv₂ : v₂.wf) (hv : v₁.strip = v₂.strip) :
    ∃ t₁ t₂, Insert d₁.render n v₁.render p = .done t₁ none ∧ Insert d₂.render n v₂.render p = .done t₂ none ∧ Flatten t₁ = Flatten t₂ := by
  obtain ⟨w', hw', e⟩ := strip_of_get hs h
  cases w' with
  | arr g' es' =>
    have hl : es'.length = es.length := by
      have := congrArg Json.size e
      rwa [size_strip, size_strip] at this
    obtain ⟨x, a1, a2, a3, a4, -⟩ := C23_insert_partial d₁ p g es n v₁ h₁ h hn hb hv₁ (hok.imp id .inl)
    obtain ⟨y, b1, b2, b3, b4, -⟩ := C23_insert_partial d₂ p g' es' n v₂ h₂ hw' (by omega) hb hv₂ ((hok.imp (by omega) id).imp id .inl)
    refine ⟨_, _, a1, b1, flatten_set a2 b2 hs (strip_of_entries (a3.trans b3.symm) (by rw [a3]; decide) ?_)⟩
    rw [a4, b4, List.map_append, List.map_append, List.map_cons, List.map_cons, List.map_take, List.map_take, List.map_drop, List.map_drop,
      bare_of_strip e]
    simp [Entry.bare, Entry.key, Entry.val, hv]
  | _ => cases e

theorem keys_of_strip {g g' : Text} {ms ms' : List (Member Json)} (e : (Json.obj g' ms').strip = (Json.obj g ms).strip) :
    ms'.map Member.key = ms.map Member.key := by
  have := congrArg (fun l => l.map Prod.fst) (bare_of_strip e)
  simp only [Json.entries, List.map_map, Function.comp_def, Entry.bare, Entry.key] at this
  apply List.ext_getElem?
  intro i
  have := congrArg (fun l => l[i]?) this
  simp only [List.getElem?_map] at this ⊢
  cases h1 : ms[i]? <;> cases h2 : ms'[i]? <;> simp_all

theorem absent_of_strip {g g' : Text} {ms ms' : List (Member Json)} (e : (Json.obj g' ms').strip = (Json.obj g ms).strip) {k : Text}
    (hk : ∀ m ∈ ms, m.key ≠ k) : ∀ m ∈ ms', m.key ≠ k := by
  intro m hm he
  have : k ∈ ms'.map Member.key := List.mem_map.2 ⟨m, hm, he⟩
  rw [keys_of_strip e] at this
  obtain ⟨m', h1, h2⟩ := List.mem_map.1 this
  exact hk m' h1 h2

/-- **C125, part**: `AddKeyValue` of a new key, where it is noticed in both documents that the key is new. -/
theorem C125_addKeyValue_partial (g : Text) (ms : List (Member Json)) (k : Text) (v₁ v₂ : Json) (h₁ : d₁.wf) (h₂ : d₂.wf)
    (hs : d₁.root.strip = d₂.root.strip) (h : d₁.get? p = some (.obj g ms)) (hk : ∀ m ∈ ms, m.key ≠ k) (hks : strOk k)
    (hok : ms = [] ∨ d₁.clear p k ∧ d₂.clear p k) (hv₁ : v₁.wf) (hv₂ : v₂.wf) (hv : v₁.strip = v₂.strip) :
    ∃ t₁ t₂, AddKeyValue d₁.render k (some v₁.render) p = .done t₁ none ∧ AddKeyValue d₂.render k (some v₂.render) p = .done t₂ none ∧
      Flatten t₁ = Flatten t₂ := by
  obtain ⟨w', hw', e⟩ := strip_of_get hs h
  cases w' with
  | obj g' ms' =>
    have hl : ms'.length = ms.length := by
      have := congrArg Json.size e
      rwa [size_strip, size_strip] at this
    obtain ⟨x, a1, a2, a3, a4, -⟩ := C21_addKeyValue_partial d₁ p g ms k v₁ h₁ h hk hks hv₁ (hok.imp id And.left)
    obtain ⟨y, b1, b2, b3, b4, -⟩ := C21_addKeyValue_partial d₂ p g' ms' k v₂ h₂ hw' (absent_of_strip e hk) hks hv₂
      (hok.imp (fun h0 => by subst h0; simpa using hl) And.right)
    refine ⟨_, _, a1, b1, flatten_set a2 b2 hs (strip_of_entries (a3.trans b3.symm) (by rw [a3]; decide) ?_)⟩
    rw [a4, b4, List.map_append, List.map_append, bare_of_strip e]
    simp [Entry.bare, Entry.key, Entry.val, hv]
  | _ => cases e

/-- **C125, part**: `SetKey` to a new key, where it is noticed in both documents that the key is new. -/
theorem C125_setKey_partial (g : Text) (ms : List (Member Json)) (n : Nat) (q new : Text) (h₁ : d₁.wf) (h₂ : d₂.wf)
    (hs : d₁.root.strip = d₂.root.strip) (h : d₁.get? p = some (.obj g ms)) (hq : memberIdx ms q = some n) (hne : new ≠ [])
    (hnew : ∀ m ∈ ms, m.key ≠ new) (hns : strOk new) (hok : d₁.clear p new ∧ d₂.clear p new) :
    ∃ t₁ t₂, SetKey d₁.render new (p ++ [q]) = .done t₁ none ∧ SetKey d₂.render new (p ++ [q]) = .done t₂ none ∧ Flatten t₁ = Flatten t₂ := by
  obtain ⟨w', hw', e⟩ := strip_of_get hs h
  cases w' with
  | obj g' ms' =>
    have hq' : memberIdx ms' q = some n := (slot_of_strip e q).trans hq
    obtain ⟨A, B, x, -, a1, a2, a3, a4, -⟩ := C24_setKey_partial d₁ p q new g ms n h₁ h hq hne hnew hns hok.1
    obtain ⟨A', B', y, -, b1, b2, b3, b4, -⟩ := C24_setKey_partial d₂ p q new g' ms' n h₂ hw' hq' hne (absent_of_strip e hnew) hns hok.2
    subst a3 b3
    refine ⟨_, _, a1, b1, ?_⟩
    rw [a2, b2]
    refine flatten_set a4 b4 hs ?_
    simp only [Json.strip, Json.obj.injEq, true_and, stripMembers_eq] at e ⊢
    apply List.ext_getElem?
    intro i
    have := congrArg (fun l => l[i]?) e
    simp only [List.getElem?_map, List.getElem?_modify] at this ⊢
    cases h1 : ms[i]? <;> cases h2 : ms'[i]? <;> simp_all
    split <;> simp_all
  | _ => cases e

/-- **C125, part**: `GetKeys`, `Length` and the kind tests say the same of both documents at a path. -/
theorem C125_readers_partial (w : Json) (h₁ : d₁.wf) (h₂ : d₂.wf) (hs : d₁.root.strip = d₂.root.strip) (hp : p ≠ []) (h : d₁.get? p = some w) :
    (w.isContainer → Length d₁.render p = Length d₂.render p) ∧ GetKeys d₁.render p = GetKeys d₂.render p ∧
    IsArray d₁.render p = IsArray d₂.render p ∧ IsValue d₁.render p = IsValue d₂.render p ∧ IsObject d₁.render p = IsObject d₂.render p := by
  obtain ⟨w', h', e⟩ := strip_of_get hs h
  have hk := kind_of_strip e
  have hne : ∀ {d : Doc} {v : Json}, d.wf → d.get? p = some v → d.render ≠ str "{}" := by
    intro d v hd hv he
    have hb : str "{}" = [123, 125] := by decide +kernel
    rw [hb] at he
    obtain ⟨lead, root, trail⟩ := d
    obtain ⟨q, qs, rfl⟩ := List.exists_cons_of_ne_nil hp
    simp only [Doc.get?, Json.get?] at hv
    cases root with
    | lit t => cases hv
    | str t => cases hv
    | arr g es =>
      have : (91 : UInt8) ∈ (⟨lead, .arr g es, trail⟩ : Doc).render := by
        cases es <;> simp [Doc.render, Json.render]
      rw [he] at this
      simp at this
    | obj g ms =>
      cases ms with
      | nil => simp [Json.child?, memberIdx] at hv
      | cons m ms =>
        have : (34 : UInt8) ∈ (⟨lead, .obj g (m :: ms), trail⟩ : Doc).render := by
          cases ms <;> simp [Doc.render, Json.render, renderMembers]
        rw [he] at this
        simp at this
  refine ⟨fun hc => ?_, ?_, by rw [C38_isArray h₁ h, C38_isArray h₂ h', hk], by rw [C38_isValue h₁ h, C38_isValue h₂ h', hk],
    by rw [C38_isObject_partial h₁ h, C38_isObject_partial h₂ h', hk]⟩
  · have hc' : w'.isContainer := by rw [← isContainer_strip, e, isContainer_strip]; exact hc
    rw [C36_length_path_partial h₁ h hc hp, C36_length_path_partial h₂ h' hc' hp, ← size_strip w', e, size_strip]
  · by_cases ho : w.kind = .obj
    · cases w with
      | obj g ms =>
        cases w' with
        | obj g' ms' => rw [C32_getKeys_partial h₁ h (hne h₁ h), C32_getKeys_partial h₂ h' (hne h₂ h'), keys_of_strip e]
        | _ => cases hk
      | _ => cases ho
    · rw [C32_other h₁ h ho, C32_other h₂ h' (by rwa [hk])]

/-- **C125 fails** `Insert` before the last element looks at the white space in front of it; a space after a colon makes
`AddKeyValue` and `SetKey` find a key that is not there. -/
theorem C125_fails :
    (Insert (str "[1,2]") 1 (str "7") [] = .done (str "[1,7,2]") none ∧ Insert (str "[1, 2]") 1 (str "7") [] = .done (str "[1,,7 2]") none) ∧
    (AddKeyValue (str "{\"x\":{\"]\":\":\",\" \":1}}") (str ": ") (some (str "1")) [] = .done (str "{\"x\":{\"]\":\":\",\" \":1},\": \":1}") none ∧
      AddKeyValue (str "{\"x\":{\"]\": \":\",\" \":1}}") (str ": ") (some (str "1")) [] =
        .done (str "{\"x\":{\"]\": \":\",\" \":1}}") (some (.keyAlreadyExist (str ": ")))) ∧
    SetKey (str "{\"x\":{\"]\":\":\",\" \":1}}") (str ": ") [str "x"] = .done (str "{\": \":{\"]\":\":\",\" \":1}}") none ∧
      ∃ e, SetKey (str "{\"x\":{\"]\": \":\",\" \":1}}") (str ": ") [str "x"] = .done (str "{\"x\":{\"]\": \":\",\" \":1}}") (some e) := by
  refine ⟨⟨by decide +kernel, by decide +kernel⟩, ⟨by decide +kernel, by decide +kernel⟩, by decide +kernel, .badJSON 0, by decide +kernel⟩

/-- Cases of the hypotheses: the sample document and its flattened form, an array and an object of it. -/
example : (∃ t₁ t₂, Delete Sample.doc.render Sample.toStr = .done t₁ none ∧ Delete (Flatten Sample.doc.render) Sample.toStr = .done t₂ none ∧
      Flatten t₁ = Flatten t₂) ∧ Sample.doc.render ≠ Flatten Sample.doc.render ∧
    (∃ t₁ t₂, Add Sample.doc.render (str "[ 7 ]") Sample.toArr = .done t₁ none ∧ Add (Flatten Sample.doc.render) (str "[7]") Sample.toArr = .done t₂ none ∧
      Flatten t₁ = Flatten t₂) := by
  refine ⟨?_, by decide +kernel, ?_⟩
  · rw [C40_flatten _ Sample.doc_wf]
    exact C125_delete Sample.doc _ Sample.toStr.dropLast (Sample.toStr.getLast?.getD []) _ Sample.doc_wf (C40_flatten_wf _ Sample.doc_wf)
      (strip_strip _).symm Sample.get_str
  · rw [C40_flatten _ Sample.doc_wf, show str "[ 7 ]" = (Json.arr [] [⟨[32], .lit (str "7"), [32]⟩]).render by decide +kernel,
      show str "[7]" = (Json.arr [] [⟨[], .lit (str "7"), []⟩]).render by decide +kernel]
    exact C125_add Sample.doc _ Sample.toArr _ _ (.arr [] [⟨[32], .lit (str "7"), [32]⟩]) (.arr [] [⟨[], .lit (str "7"), []⟩]) Sample.doc_wf
      (C40_flatten_wf _ Sample.doc_wf) (strip_strip _).symm Sample.get_arr (by decide +kernel) (by decide +kernel) (by decide +kernel)

end Jin
