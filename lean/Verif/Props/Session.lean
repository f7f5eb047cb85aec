import Verif.Spec.Plain
import Verif.Props.FormatMut
import Verif.Props.ListsFollow
import Verif.Props.Bytes
import Verif.Props.Walk
/-!
# Property C127: a session of mutations does to the text what it does to the value

The value of a document is its tree without layout (`Spec/Plain`).
-/

namespace Jin
open Spec

/-! ### Trees and values -/

theorem plainElems_eq (es : List (Elem Json)) : plainElems es = es.map fun e => e.v.plain := by
  induction es with
  | nil => rfl
  | cons e es ih => rw [plainElems, ih]; rfl

theorem plainMembers_eq (ms : List (Member Json)) : plainMembers ms = ms.map fun m => (m.key, m.v.plain) := by
  induction ms with
  | nil => rfl
  | cons m ms ih => rw [plainMembers, ih]; rfl

theorem findIdx_plain (ms : List (Member Json)) (k : Text) :
    (ms.map fun m => (m.key, m.v.plain)).findIdx? (fun m => m.1 == k) = memberIdx ms k := by
  simp only [memberIdx, List.findIdx?_map, Function.comp_def]

theorem find_plain {β : Type} (ms : List (Text × β)) (k : Text) :
    ms.find? (fun m => m.1 == k) = (ms.findIdx? fun m => m.1 == k).bind fun n => ms[n]? := by
  induction ms with
  | nil => rfl
  | cons m ms ih =>
    by_cases h : m.1 == k
    · simp [List.findIdx?_cons, h]
    · simp only [List.find?_cons, List.findIdx?_cons, h, ih]
      cases List.findIdx? (fun m => m.1 == k) ms <;> simp

theorem child_plain (j : Json) (k : Text) : j.plain.child? k = (j.child? k).map Json.plain := by
  cases j with
  | lit t => rfl
  | str t => rfl
  | arr g es =>
    simp only [Json.plain, plainElems_eq, Plain.child?, Json.child?]
    cases readIndex k with
    | none => rfl
    | some n => cases h : es[n]? <;> simp [h]
  | obj g ms =>
    simp only [Json.plain, plainMembers_eq, Plain.child?, Json.child?, find_plain, findIdx_plain]
    cases memberIdx ms k with
    | none => rfl
    | some n => cases h : ms[n]? <;> simp [h]

theorem get_plain (p : List Text) : ∀ j : Json, j.plain.get? p = (j.get? p).map Json.plain := by
  induction p with
  | nil => intro j; rfl
  | cons k ks ih =>
    intro j
    rw [Plain.get?, Json.get?, child_plain]
    cases j.child? k with
    | none => rfl
    | some c => simpa using ih c

theorem setChild_plain (j c' : Json) (k : Text) (f : Json → Json) (c : Json) (hc : j.child? k = some c) (hf : f c = c') :
    (j.updChild k f).plain = j.plain.setChild k c'.plain := by
  cases j with
  | lit t => cases hc
  | str t => cases hc
  | arr g es =>
    simp only [Json.child?] at hc
    cases hr : readIndex k with
    | none => rw [hr] at hc; cases hc
    | some n =>
      rw [hr] at hc
      simp only [Option.bind_some, Option.map_eq_some_iff] at hc
      obtain ⟨e, he, rfl⟩ := hc
      simp only [Json.updChild, hr, Json.plain, Plain.setChild, plainElems_eq]
      congr 1
      apply List.ext_getElem?
      intro i
      simp only [List.getElem?_map, List.getElem?_modify, List.getElem?_set, List.length_map]
      by_cases hi : n = i
      · subst hi
        obtain ⟨hl, rfl⟩ := List.getElem?_eq_some_iff.1 he
        simp [hf, hl]
      · simp [hi]
  | obj g ms =>
    simp only [Json.child?] at hc
    cases hr : memberIdx ms k with
    | none => rw [hr] at hc; cases hc
    | some n =>
      rw [hr] at hc
      simp only [Option.bind_some, Option.map_eq_some_iff] at hc
      obtain ⟨e, he, rfl⟩ := hc
      simp only [Json.updChild, hr, Json.plain, Plain.setChild, plainMembers_eq, findIdx_plain]
      congr 1
      apply List.ext_getElem?
      intro i
      simp only [List.getElem?_map, List.getElem?_modify]
      by_cases hi : n = i
      · subst hi
        simp [he, hf]
      · simp [hi]

/-- Replacing the value at a path is an edit of the value of the whole. -/
theorem edit_plain {f : Plain → Option Plain} {w w' : Json} (hf : f w.plain = some w'.plain) (p : List Text) :
    ∀ {j : Json}, j.get? p = some w → j.plain.edit f p = some (j.set p w').plain := by
  induction p with
  | nil => intro j h; simp only [Json.get?, Option.some.injEq] at h; subst h; exact hf
  | cons k ks ih =>
    intro j h
    rw [Json.get?, Option.bind_eq_some_iff] at h
    obtain ⟨c, hc, h⟩ := h
    rw [Plain.edit, child_plain, hc]
    simp only [Option.map_some, Option.bind_some, ih h]
    rw [← setChild_plain j (c.set ks w') k (fun c => c.set ks w') c hc rfl]
    rfl

mutual
theorem text_strip : ∀ j : Json, j.strip.render = j.plain.text
  | .lit t => rfl
  | .str t => rfl
  | .arr g es => by
    cases es with
    | nil => rfl
    | cons e es => simp only [Json.strip, Json.render, Json.plain, Plain.text, ← text_elems (e :: es)]; simp [stripElems]
  | .obj g ms => by
    cases ms with
    | nil => rfl
    | cons m ms => simp only [Json.strip, Json.render, Json.plain, Plain.text, ← text_members (m :: ms)]; simp [stripMembers]
theorem text_elems : ∀ es : List (Elem Json), renderElems (stripElems es) = textElems (plainElems es)
  | [] => rfl
  | ⟨l, v, r⟩ :: es => by
    simp only [stripElems, renderElems, plainElems, textElems, text_strip v, text_elems es]
    cases es <;> simp [stripElems, plainElems]
theorem text_members : ∀ ms : List (Member Json), renderMembers (stripMembers ms) = textMembers (plainMembers ms)
  | [] => rfl
  | ⟨l, k, m, l2, v, r⟩ :: ms => by
    simp only [stripMembers, renderMembers, plainMembers, textMembers, text_strip v, text_members ms]
    cases ms <;> simp [stripMembers, plainMembers]
end

/-- The value of a container is its kind and the values of its entries. -/
theorem plain_arr {w : Json} (h : w.kind = .arr) : w.plain = .arr (w.entries.map fun e => e.val.plain) := by
  cases w with
  | arr g es => simp [Json.plain, plainElems_eq, Json.entries, Entry.val, Function.comp_def]
  | _ => cases h

theorem plain_obj {w : Json} (h : w.kind = .obj) : w.plain = .obj (w.entries.map fun e => (e.key.getD [], e.val.plain)) := by
  cases w with
  | obj g ms => simp [Json.plain, plainMembers_eq, Json.entries, Entry.val, Entry.key, Function.comp_def]
  | _ => cases h

theorem of_plain_arr {w : Json} {es : List Plain} (h : w.plain = .arr es) : w.kind = .arr ∧ es = w.entries.map fun e => e.val.plain := by
  have hk : w.kind = .arr := by cases w <;> simp [Json.plain] at h ⊢ <;> rfl
  rw [plain_arr hk] at h
  injection h with h
  exact ⟨hk, h.symm⟩

theorem of_plain_obj {w : Json} {ms : List (Text × Plain)} (h : w.plain = .obj ms) :
    w.kind = .obj ∧ ms = w.entries.map fun e => (e.key.getD [], e.val.plain) := by
  have hk : w.kind = .obj := by cases w <;> simp [Json.plain] at h ⊢ <;> rfl
  rw [plain_obj hk] at h
  injection h with h
  exact ⟨hk, h.symm⟩

theorem setDoc_kind {w w' : Json} (p : List Text) {j : Json} (h : j.get? p = some w) (hk : p = [] → w'.kind = w.kind) : (j.set p w').kind = j.kind := by
  cases p with
  | nil => simp only [Json.get?, Option.some.injEq] at h; subst h; exact hk rfl
  | cons q qs => exact (size_upd j (fun _ => w') q qs).2

/-! ### One mutation -/

/-- The conditions in words. -/
def Spec.Edit.Args : Edit → Prop
  | .set _ v | .add _ v => v.wf
  | .insert _ n v => v.wf ∧ (n : Int) ≤ 9223372036854775807
  | .delete _ _ => True
  | .addKeyValue _ k v => strOk k ∧ v.wf
  | .setKey _ _ new => strOk new

def Spec.Edit.Applies (t : Plain) : Edit → Prop
  | .set p _ => p ≠ [] ∧ ∃ c, t.get? p = some c
  | .delete p q => ∃ c, t.get? (p ++ [q]) = some c
  | .add p _ => ∃ es, t.get? p = some (.arr es)
  | .insert p n _ => ∃ es, t.get? p = some (.arr es) ∧ n < es.length ∧ (n + 1 < es.length ∨ n = 0)
  | .addKeyValue p _ _ => ∃ ms, t.get? p = some (.obj ms)
  | .setKey p q _ => ∃ ms, t.get? p = some (.obj ms) ∧ ∃ m ∈ ms, m.1 = q

theorem args_prop {o : Edit} (h : o.args = true) : o.Args := by
  cases o <;> simp_all [Edit.args, Edit.Args]

theorem applies_prop {o : Edit} {t : Plain} (h : o.applies t = true) : o.Applies t := by
  cases o with
  | set p v =>
    simp only [Edit.applies, Bool.and_eq_true, Bool.not_eq_true', List.isEmpty_eq_false_iff, Option.isSome_iff_exists] at h
    exact h
  | delete p q => exact Option.isSome_iff_exists.1 h
  | add p v =>
    simp only [Edit.applies] at h
    split at h
    · rename_i es he; exact ⟨es, he⟩
    · cases h
  | insert p n v =>
    simp only [Edit.applies] at h
    split at h
    · rename_i es he
      simp only [Bool.or_eq_true, decide_eq_true_eq] at h
      exact ⟨es, he, by omega, by omega⟩
    · cases h
  | addKeyValue p k v =>
    simp only [Edit.applies] at h
    split at h
    · rename_i ms he; exact ⟨ms, he⟩
    · cases h
  | setKey p q new =>
    simp only [Edit.applies] at h
    split at h
    · rename_i ms he
      rw [List.any_eq_true] at h
      obtain ⟨m, hm, h⟩ := h
      exact ⟨ms, he, m, hm, by simpa using h⟩
    · cases h

/-- The call of a mutation. -/
def Spec.Edit.run (json : Bytes) : Edit → Mut
  | .set p v => Set json v.render p
  | .delete p q => Delete json (p ++ [q])
  | .add p v => Add json v.render p
  | .insert p n v => Insert json n v.render p
  | .addKeyValue p k v => AddKeyValue json k (some v.render) p
  | .setKey p q new => SetKey json new (p ++ [q])

theorem of_get_plain {d : Doc} {p : List Text} {c : Plain} (h : d.root.plain.get? p = some c) : ∃ w, d.get? p = some w ∧ w.plain = c := by
  rw [get_plain, Option.map_eq_some_iff] at h
  exact h

theorem any_keys {w : Json} {q : Text} (hk : w.kind = .obj) :
    (w.entries.map fun e => (e.key.getD [], e.val.plain)).any (fun m => m.1 == q) = true ↔ ∃ e ∈ w.entries, e.key = some q := by
  rw [← keyList_mem hk]
  simp [keyList]

theorem eraseP_findIdx {α : Type} (P : α → Bool) : ∀ {l : List α} {n : Nat}, l.findIdx? P = some n → l.eraseP P = l.eraseIdx n
  | [], n, h => by cases h
  | x :: xs, n, h => by
    rw [List.findIdx?_cons] at h
    by_cases hx : P x
    · rw [if_pos hx] at h
      cases h
      simp [hx]
    · rw [if_neg hx, Option.map_eq_some_iff] at h
      obtain ⟨m, h, rfl⟩ := h
      simp [hx, eraseP_findIdx P h]

/-- **C127** One mutation that applies: `Set`, `Delete`, `Add` and `Insert` succeed and do to the value what they should. `AddKeyValue` and
`SetKey` do that, or give an error and leave the text. -/
theorem C127_step {d : Doc} {o : Edit} (hd : d.wf) (ha : o.args) (hv : o.applies d.root.plain) {json : Bytes} {er : Option Err}
    (h : o.run d.render = .done json er) :
    (er = none ∧ ∃ d' : Doc, json = d'.render ∧ d'.wf ∧ o.on d.root.plain = some d'.root.plain ∧
      d'.trail = d.trail ∧ d'.root.kind = d.root.kind) ∨
    (er ≠ none ∧ o.looks ∧ json = d.render) := by
  replace ha := args_prop ha
  replace hv := applies_prop hv
  cases o with
  | set p v =>
    obtain ⟨hp, c, hc⟩ := hv
    obtain ⟨w, hw, -⟩ := of_get_plain hc
    obtain ⟨h1, h2, -⟩ := C08_get_after_set d p w v hd hp hw ha
    rw [Edit.run, h1] at h
    cases h
    exact .inl ⟨rfl, _, rfl, h2, edit_plain (f := fun _ => some v.plain) (w := w) (w' := v) rfl p hw, rfl, setDoc_kind p hw fun h => absurd h hp⟩
  | delete p q =>
    obtain ⟨c, hc⟩ := hv
    obtain ⟨c, hc, -⟩ := of_get_plain hc
    have hc' := hc
    unfold Doc.get? at hc'
    rw [get_append, Option.bind_eq_some_iff] at hc'
    obtain ⟨w, hw, hc'⟩ := hc'
    obtain ⟨n, w', h1, -, h2, h3, h4, h5⟩ := C16_delete_exact d p q w c hd hw hc
    rw [Edit.run, h2] at h
    cases h
    refine .inl ⟨rfl, _, rfl, h3, edit_plain (f := Plain.remove q) (w' := w') ?_ p hw, rfl, setDoc_kind p hw fun _ => h4⟩
    have hl : n < w.entries.length := slot_lt h1
    cases hk : w.kind with
    | scalar => cases w <;> simp [Json.slot?, Json.kind] at h1 hk
    | arr =>
      rw [plain_arr hk, plain_arr (h4.trans hk), h5, map_eraseIdx']
      rw [slot_arr hk] at h1
      cases hr : readIndex q with
      | none => rw [hr] at h1; cases h1
      | some i =>
        rw [hr] at h1
        have : i = n := by simp [Option.filter] at h1; exact h1.2
        subst this
        simp [Plain.remove, hr, hl]
    | obj =>
      rw [plain_obj hk, plain_obj (h4.trans hk), h5, map_eraseIdx']
      rw [slot_obj hk] at h1
      have hm : (w.entries.map fun e => (e.key.getD [], e.val.plain)).findIdx? (fun m => m.1 == q) = some n := by
        rw [← h1, List.findIdx?_map]
        cases w with
        | obj g ms => simp only [Json.entries, List.findIdx?_map]; congr 1
        | _ => cases hk
      have ha : (w.entries.map fun e => (e.key.getD [], e.val.plain)).any (fun m => m.1 == q) = true := by
        rw [List.findIdx?_eq_some_iff_getElem] at hm
        obtain ⟨a, b, -⟩ := hm
        exact List.any_eq_true.2 ⟨_, List.getElem_mem a, b⟩
      simp only [Plain.remove, ha, if_true, eraseP_findIdx _ hm]
  | add p v =>
    obtain ⟨es, hc⟩ := hv
    obtain ⟨w, hw, hpl⟩ := of_get_plain hc
    obtain ⟨hk, rfl⟩ := of_plain_arr hpl
    cases w with
    | arr g es =>
      obtain ⟨w', h1, h2, h3, h4, -⟩ := C20_add d p g es v hd hw ha
      rw [Edit.run, h1] at h
      cases h
      refine .inl ⟨rfl, _, rfl, h2, edit_plain (f := Plain.push v.plain) (w' := w') ?_ p hw, rfl, setDoc_kind p hw fun _ => h3⟩
      rw [hpl, plain_arr h3, h4]
      simp [Plain.push, Entry.val]
    | _ => cases hk
  | insert p n v =>
    obtain ⟨es, hc, hn, hok⟩ := hv
    obtain ⟨w, hw, hpl⟩ := of_get_plain hc
    obtain ⟨hk, rfl⟩ := of_plain_arr hpl
    cases w with
    | arr g es =>
      have hn' : n < es.length := by simpa [Json.entries] using hn
      obtain ⟨w', h1, h2, h3, h4, -⟩ := C23_insert_partial d p g es n v hd hw hn' ha.2 ha.1
        (by rcases hok with h | h
            · exact .inl (by simpa [Json.entries] using h)
            · exact .inr (.inl h))
      rw [Edit.run, h1] at h
      cases h
      refine .inl ⟨rfl, _, rfl, h2, edit_plain (f := Plain.putAt n v.plain) (w' := w') ?_ p hw, rfl, setDoc_kind p hw fun _ => h3⟩
      rw [hpl, plain_arr h3, h4]
      simp only [Plain.putAt, hn, if_true]
      simp [Entry.val, List.map_take, List.map_drop]
    | _ => cases hk
  | addKeyValue p k v =>
    obtain ⟨ms, hc⟩ := hv
    obtain ⟨w, hw, hpl⟩ := of_get_plain hc
    obtain ⟨hk, rfl⟩ := of_plain_obj hpl
    cases w with
    | obj g ms =>
      by_cases hex : ∃ m ∈ ms, m.key = k
      · rw [Edit.run, C22_addKeyValue_exists d p g ms k (some v.render) hd hw hex] at h
        cases h
        exact .inr ⟨by simp, rfl, rfl⟩
      · have hnew : ∀ m ∈ ms, m.key ≠ k := fun m hm he => hex ⟨m, hm, he⟩
        rcases C21_all_or_nothing_partial d p g ms k v hd hw hnew ha.1 ha.2 _ _ h with ⟨h0, h1⟩ | ⟨h0, w', h1, h2, h3, h4, -⟩
        · exact .inr ⟨h0, rfl, h1⟩
        · refine .inl ⟨h0, _, h1, h2, edit_plain (f := Plain.addMember k v.plain) (w' := w') ?_ p hw, rfl, setDoc_kind p hw fun _ => h3⟩
          have hno : ¬ (((Json.obj g ms).entries.map fun e => (e.key.getD [], e.val.plain)).any (fun m => m.1 == k) = true) := by
            rw [any_keys hk]
            rintro ⟨e, he, hek⟩
            simp only [Json.entries, List.mem_map] at he
            obtain ⟨m, hm, rfl⟩ := he
            exact hnew m hm (by simpa [Entry.key] using hek)
          rw [hpl, plain_obj h3, h4]
          simp only [Plain.addMember, if_neg hno]
          simp [Entry.val, Entry.key]
    | _ => cases hk
  | setKey p q new =>
    obtain ⟨ms, hc, m, hm, hmq⟩ := hv
    obtain ⟨w, hw, hpl⟩ := of_get_plain hc
    obtain ⟨hk, rfl⟩ := of_plain_obj hpl
    cases w with
    | obj g ms =>
      by_cases hex : ∃ m ∈ ms, m.key = new
      · rw [Edit.run, C25_setKey_exists d p q new g ms hd hw (.inr hex)] at h
        cases h
        exact .inr ⟨by simp, rfl, rfl⟩
      · have hnew : ∀ m ∈ ms, m.key ≠ new := fun m hm he => hex ⟨m, hm, he⟩
        obtain ⟨n, hn⟩ : ∃ n, memberIdx ms q = some n := by
          cases hi : memberIdx ms q with
          | some n => exact ⟨n, rfl⟩
          | none =>
            simp only [Json.entries, List.map_map, List.mem_map, Function.comp_def, Entry.key, Option.getD_some] at hm
            obtain ⟨x, hx, rfl⟩ := hm
            exact absurd hmq (memberIdx_none hi x hx)
        rcases C24_all_or_nothing_partial d p q new g ms n hd hw hn hnew ha _ _ h with ⟨h0, h1⟩ | ⟨h0, d', h1, rfl, h2, -⟩
        · exact .inr ⟨h0, rfl, h1⟩
        · refine .inl ⟨h0, _, h1, h2, edit_plain (f := Plain.rename q new) (w' := .obj g (ms.modify n fun m => { m with key := new })) ?_ p hw, rfl, setDoc_kind p hw fun _ => rfl⟩
          simp only [Json.plain, plainMembers_eq, Plain.rename, findIdx_plain, hn, Option.map_some]
          rw [if_neg]
          · congr 2
            apply List.ext_getElem?
            intro i
            simp only [List.getElem?_map, List.getElem?_modify]
            split <;> cases ms[i]? <;> simp
          · rw [List.any_map, List.any_eq_true]
            rintro ⟨x, hx, hxn⟩
            exact hnew x hx (by simpa using hxn)
    | _ => cases hk

/-- **C127** `Set`, `Delete`, `Add` and `Insert` that apply do succeed. -/
theorem C127_runs {d : Doc} {o : Edit} (hd : d.wf) (ha : o.args) (hv : o.applies d.root.plain) (hl : o.looks = false) :
    ∃ json, o.run d.render = .done json none := by
  replace ha := args_prop ha
  replace hv := applies_prop hv
  cases o with
  | set p v =>
    obtain ⟨hp, c, hc⟩ := hv
    obtain ⟨w, hw, -⟩ := of_get_plain hc
    exact ⟨_, (C08_get_after_set d p w v hd hp hw ha).1⟩
  | delete p q =>
    obtain ⟨c, hc⟩ := hv
    obtain ⟨c, hc, -⟩ := of_get_plain hc
    have hc' := hc
    unfold Doc.get? at hc'
    rw [get_append, Option.bind_eq_some_iff] at hc'
    obtain ⟨w, hw, hc'⟩ := hc'
    obtain ⟨n, w', -, -, h2, -⟩ := C16_delete_exact d p q w c hd hw hc
    exact ⟨_, h2⟩
  | add p v =>
    obtain ⟨es, hc⟩ := hv
    obtain ⟨w, hw, hpl⟩ := of_get_plain hc
    obtain ⟨hk, rfl⟩ := of_plain_arr hpl
    cases w with
    | arr g es =>
      obtain ⟨w', h1, -⟩ := C20_add d p g es v hd hw ha
      exact ⟨_, h1⟩
    | _ => cases hk
  | insert p n v =>
    obtain ⟨es, hc, hn, hok⟩ := hv
    obtain ⟨w, hw, hpl⟩ := of_get_plain hc
    obtain ⟨hk, rfl⟩ := of_plain_arr hpl
    cases w with
    | arr g es =>
      have hn' : n < es.length := by simpa [Json.entries] using hn
      obtain ⟨w', h1, -⟩ := C23_insert_partial d p g es n v hd hw hn' ha.2 ha.1
        (by rcases hok with h | h
            · exact .inl (by simpa [Json.entries] using h)
            · exact .inr (.inl h))
      exact ⟨_, h1⟩
    | _ => cases hk
  | addKeyValue p k v => cases hl
  | setKey p q new => cases hl

/-! ### Sessions -/

/-- Calls one after another, each on the text that the former left, with the errors they gave. -/
inductive Session : Bytes → List (Edit × Option Err) → Bytes → Prop
  | nil {json} : Session json [] json
  | cons {json json' json'' o er os} : o.run json = .done json' er → Session json' os json'' → Session json ((o, er) :: os) json''

/-- What the calls that succeeded do to a value. -/
def follow : Plain → List (Edit × Option Err) → Option Plain
  | t, [] => some t
  | t, (o, none) :: os => (o.on t).bind fun t' => follow t' os
  | t, (_, some _) :: os => follow t os

/-- Each call applies to the value as it is then. -/
def Valid : Plain → List (Edit × Option Err) → Bool
  | _, [] => true
  | t, (o, none) :: os => o.args && o.applies t && match o.on t with
    | some t' => Valid t' os
    | none => true
  | t, (o, some _) :: os => o.args && o.applies t && Valid t os

theorem valid_none {t : Plain} {o : Edit} {os : List (Edit × Option Err)} :
    Valid t ((o, none) :: os) = true ↔ o.args = true ∧ o.applies t = true ∧ ∀ t', o.on t = some t' → Valid t' os = true := by
  rw [Valid]
  cases o.on t <;> simp [and_assoc]

theorem valid_some {t : Plain} {o : Edit} {e : Err} {os : List (Edit × Option Err)} :
    Valid t ((o, some e) :: os) = true ↔ o.args = true ∧ o.applies t = true ∧ Valid t os = true := by
  rw [Valid]
  simp [and_assoc]

/-- **C127** After a session of calls that apply, the text is a document whose value is what the calls do to the value of the first
document; only `AddKeyValue` and `SetKey` can have failed. -/
theorem C127_session {l : List (Edit × Option Err)} : ∀ {d : Doc} {json : Bytes}, d.wf → Session d.render l json → Valid d.root.plain l →
    (∃ d' : Doc, json = d'.render ∧ d'.wf ∧ follow d.root.plain l = some d'.root.plain) ∧ ∀ x ∈ l, x.2 ≠ none → x.1.looks := by
  induction l with
  | nil =>
    intro d json hd hs _
    cases hs
    exact ⟨⟨d, rfl, hd, rfl⟩, by simp⟩
  | cons x l ih =>
    intro d json hd hs hv
    cases hs with
    | cons h hs =>
      rename_i json' o er
      cases er with
      | none =>
        obtain ⟨ha, hap, hv⟩ := valid_none.1 hv
        rcases C127_step hd ha hap h with ⟨-, d', rfl, h2, h3, -⟩ | ⟨h0, -⟩
        · obtain ⟨⟨d'', a1, a2, a3⟩, a4⟩ := ih h2 hs (hv _ h3)
          refine ⟨⟨d'', a1, a2, by rw [follow, h3]; exact a3⟩, ?_⟩
          intro y hy
          rcases List.mem_cons.1 hy with rfl | hy
          · intro h; exact absurd rfl h
          · exact a4 y hy
        · exact absurd rfl h0
      | some e =>
        obtain ⟨ha, hap, hv⟩ := valid_some.1 hv
        rcases C127_step hd ha hap h with ⟨h0, -⟩ | ⟨-, hl, rfl⟩
        · cases h0
        · obtain ⟨⟨d'', a1, a2, a3⟩, a4⟩ := ih hd hs hv
          refine ⟨⟨d'', a1, a2, a3⟩, ?_⟩
          intro y hy
          rcases List.mem_cons.1 hy with rfl | hy
          · intro _; exact hl
          · exact a4 y hy

/-- A text that shows a value: the text of a scalar without quotes, or a text that `Flatten` makes the text of the container. -/
def Spec.Plain.shownBy (v : Bytes) : Plain → Prop
  | .lit x => v = x
  | .str x => v = x
  | c => Flatten v = c.text

theorem shown_content {w : Json} (hw : w.wf) : w.plain.shownBy w.content := by
  have hfl : Flatten w.render = w.plain.text := by
    have := flatten_ok (d := ⟨[], w, []⟩) (by simp [Doc.wf, Ws, hw])
    simpa [Doc.render, text_strip] using this
  cases w with
  | lit x => rfl
  | str x => rfl
  | arr g es => exact hfl
  | obj g ms => exact hfl

/-- **C127** What is read after the session: `Flatten` gives the text of the value; `Get` gives a text that shows the value at the path;
`GetKeys` gives the keys of an object that is not empty; `IterateArray` hands out texts that show the elements of an array that is not empty. -/
theorem C127_read {l : List (Edit × Option Err)} {d : Doc} {json : Bytes} {t : Plain} (hd : d.wf) (hs : Session d.render l json)
    (hv : Valid d.root.plain l) (ht : follow d.root.plain l = some t) :
    Flatten json = t.text ∧
    (∀ p c, p ≠ [] → t.get? p = some c → ∃ v, Get json p = .ok v ∧ c.shownBy v) ∧
    (∀ p ms, t.get? p = some (.obj ms) → ms ≠ [] → GetKeys json p = .ok (ms.map (·.1))) ∧
    (∀ p es, t.get? p = some (.arr es) → es ≠ [] → ∃ vs, listed json p = .done vs none ∧ vs.length = es.length ∧
      ∀ (i : Nat) (v : Bytes) (c : Plain), vs[i]? = some v → es[i]? = some c → c.shownBy v) := by
  obtain ⟨⟨d', rfl, hd', e⟩, -⟩ := C127_session hd hs hv
  rw [ht] at e
  injection e with e
  subst e
  refine ⟨by rw [flatten_ok hd', text_strip], fun p c hp hc => ?_, fun p ms hc hne => ?_, fun p es hc hne => ?_⟩
  · obtain ⟨w, hw, rfl⟩ := of_get_plain hc
    exact ⟨_, get_ok hd' hp hw, shown_content (get_wf p (doc_wf.1 hd').2.1 hw)⟩
  · obtain ⟨w, hw, hpl⟩ := of_get_plain hc
    obtain ⟨hk, rfl⟩ := of_plain_obj hpl
    rw [getKeys_list hd' hw hk (obj_ne hd' hw hk (.inr (by intro e; rw [e] at hne; exact hne rfl)))]
    simp [keyList, Function.comp_def]
  · obtain ⟨w, hw, hpl⟩ := of_get_plain hc
    obtain ⟨hk, rfl⟩ := of_plain_arr hpl
    refine ⟨_, listed_arr hd' hw hk (by intro e; rw [e] at hne; exact hne rfl), by simp, fun i v c h1 h2 => ?_⟩
    rw [List.getElem?_map, Option.map_eq_some_iff] at h1 h2
    obtain ⟨e, h1, rfl⟩ := h1
    obtain ⟨e', h2, rfl⟩ := h2
    rw [h1] at h2
    cases h2
    have hww : w.wf := get_wf p (doc_wf.1 hd').2.1 hw
    cases w with
    | arr g es =>
      simp only [Json.entries, List.getElem?_map, Option.map_eq_some_iff] at h1
      obtain ⟨x, hx, rfl⟩ := h1
      refine shown_content ?_
      simp only [Json.wf, Bool.and_eq_true] at hww
      exact (wfElems_iff.1 hww.2 x (List.mem_of_getElem? hx)).2.1
    | _ => cases hk

/-! ### Walking -/

mutual
/-- Every array and object inside is non-empty, and the keys of each object are distinct. -/
def Spec.Plain.walkable : Plain → Bool
  | .lit _ => true
  | .str _ => true
  | .arr es => !es.isEmpty && walkableList es
  | .obj ms => !ms.isEmpty && decide (ms.map Prod.fst).Nodup && walkablePairs ms
def Spec.walkableList : List Plain → Bool
  | [] => true
  | v :: es => v.walkable && walkableList es
def Spec.walkablePairs : List (Text × Plain) → Bool
  | [] => true
  | (_, v) :: ms => v.walkable && walkablePairs ms
end

mutual
/-- The scalars in order: path and text. -/
def Spec.Plain.leaves (path : List Text) : Plain → List (List Text × Text)
  | .lit t => [(path, t)]
  | .str raw => [(path, raw)]
  | .arr es => leavesList path 0 es
  | .obj ms => leavesPairs path ms
def Spec.leavesList (path : List Text) (n : Nat) : List Plain → List (List Text × Text)
  | [] => []
  | v :: es => v.leaves (path ++ [itoa n]) ++ leavesList path (n + 1) es
def Spec.leavesPairs (path : List Text) : List (Text × Plain) → List (List Text × Text)
  | [] => []
  | (k, v) :: ms => v.leaves (path ++ [k]) ++ leavesPairs path ms
end

mutual
theorem walkable_plain : ∀ w : Json, w.plain.walkable = w.walkable
  | .lit _ => rfl
  | .str _ => rfl
  | .arr g es => by
    rw [Json.plain, Plain.walkable, Json.walkable, walkable_elems]
    cases es <;> rfl
  | .obj g ms => by
    rw [Json.plain, Plain.walkable, Json.walkable, walkable_members, plainMembers_eq, List.map_map]
    congr 2
    cases ms <;> rfl
theorem walkable_elems : ∀ es : List (Elem Json), walkableList (plainElems es) = walkableElems es
  | [] => rfl
  | ⟨_, v, _⟩ :: es => by rw [plainElems, walkableList, walkableElems, walkable_plain v, walkable_elems es]
theorem walkable_members : ∀ ms : List (Member Json), walkablePairs (plainMembers ms) = walkableMembers ms
  | [] => rfl
  | ⟨_, _, _, _, v, _⟩ :: ms => by rw [plainMembers, walkablePairs, walkableMembers, walkable_plain v, walkable_members ms]
end

mutual
theorem leaves_plain (path : List Text) : ∀ w : Json, w.plain.leaves path = w.leaves path
  | .lit _ => rfl
  | .str _ => rfl
  | .arr g es => by rw [Json.plain, Plain.leaves, Json.leaves, leaves_elems path 0 es]
  | .obj g ms => by rw [Json.plain, Plain.leaves, Json.leaves, leaves_members path ms]
theorem leaves_elems (path : List Text) (n : Nat) : ∀ es : List (Elem Json), leavesList path n (plainElems es) = leavesElems path n es
  | [] => rfl
  | ⟨_, v, _⟩ :: es => by rw [plainElems, leavesList, leavesElems, leaves_plain _ v, leaves_elems path (n + 1) es]
theorem leaves_members (path : List Text) : ∀ ms : List (Member Json), leavesPairs path (plainMembers ms) = leavesMembers path ms
  | [] => rfl
  | ⟨_, _, _, _, v, _⟩ :: ms => by rw [plainMembers, leavesPairs, leavesMembers, leaves_plain _ v, leaves_members path ms]
end

/-- **C127** After the session, `Walk` hands out the scalars of the value, each with its path and the last entry of it, in order. -/
theorem C127_walk {l : List (Edit × Option Err)} {d : Doc} {json : Bytes} {t : Plain} (hd : d.wf) (hs : Session d.render l json)
    (hv : Valid d.root.plain l) (ht : follow d.root.plain l = some t) (hl : (json.length : Int) ≤ 9223372036854775807)
    (hc : (∃ es, t = .arr es) ∨ ∃ ms, t = .obj ms) (hw : t.walkable) (isFloat : Bytes → Bool) :
    Walk isFloat json (fun (u : List (Bytes × Bytes × List Bytes)) k v p => .ret (u ++ [(k, v, p)]) true none) [] =
      .done ((t.leaves []).map fun l => (l.1.getLast?.getD [], l.2, l.1)) none := by
  obtain ⟨⟨d', rfl, hd', e⟩, -⟩ := C127_session hd hs hv
  rw [ht] at e
  injection e with e
  subst e
  rw [walkable_plain] at hw
  rw [leaves_plain]
  refine C57_collect d' hd' hl ?_ hw isFloat
  cases hr : d'.root <;> rw [hr] at hc <;> simp [Json.plain, Json.isContainer] at hc ⊢

/-- Each call applies, whatever `AddKeyValue` and `SetKey` answer. -/
def ValidAll : Plain → List Edit → Bool
  | _, [] => true
  | t, o :: os => o.args && o.applies t && (match o.on t with
    | some t' => ValidAll t' os
    | none => true) && (!o.looks || ValidAll t os)

theorem validAll_cons {t : Plain} {o : Edit} {os : List Edit} : ValidAll t (o :: os) = true ↔
    o.args = true ∧ o.applies t = true ∧ (∀ t', o.on t = some t' → ValidAll t' os = true) ∧ (o.looks = true → ValidAll t os = true) := by
  rw [ValidAll]
  cases o.on t <;> cases o.looks <;> simp [and_assoc]

theorem doc_last {d : Doc} (ht : d.trail = []) (hk : d.root.kind ≠ .scalar) : ∀ c, d.render.getLast? = some c → c ∉ [32, 9, 10, 13, 58, 44, 91] := by
  obtain ⟨lead, root, trail⟩ := d
  subst ht
  refine settled_closed ?_
  cases root with
  | lit t => exact absurd rfl hk
  | str t => exact absurd rfl hk
  | arr g es =>
    left
    rw [Doc.render, Json.render, List.append_nil, ← List.cons_append, ← List.append_assoc, List.getLast?_append]
    rfl
  | obj g ms =>
    right
    rw [Doc.render, Json.render, List.append_nil, ← List.cons_append, ← List.append_assoc, List.getLast?_append]
    rfl

/-- **C127** On a document that ends with a bracket, calls that apply go through to the end. -/
theorem C127_total {ops : List Edit} : ∀ {d : Doc}, d.wf → d.trail = [] → d.root.kind ≠ .scalar → ValidAll d.root.plain ops →
    ∃ l json, l.map Prod.fst = ops ∧ Session d.render l json ∧ Valid d.root.plain l := by
  induction ops with
  | nil => intro d hd _ _ _; exact ⟨[], _, rfl, .nil, rfl⟩
  | cons o os ih =>
    intro d hd ht hk hv
    obtain ⟨ha, hap, h1, h2⟩ := validAll_cons.1 hv
    have hrun : ∃ json er, o.run d.render = .done json er := by
      cases hl : o.looks with
      | false =>
        obtain ⟨json, h⟩ := C127_runs hd ha hap hl
        exact ⟨json, none, h⟩
      | true =>
        cases o with
        | addKeyValue p k v =>
          cases h : AddKeyValue d.render k (some v.render) p with
          | panic => exact absurd h (C72_addKeyValue _ _ _ _ (doc_last ht hk))
          | done json er => exact ⟨json, er, h⟩
        | setKey p q new =>
          cases h : SetKey d.render new (p ++ [q]) with
          | panic => exact absurd h (C72_setKey _ _ _ (doc_last ht hk))
          | done json er => exact ⟨json, er, h⟩
        | _ => cases hl
    obtain ⟨json, er, h⟩ := hrun
    rcases C127_step hd ha hap h with ⟨rfl, d', rfl, a2, a3, a4, a5⟩ | ⟨h0, hl, rfl⟩
    · obtain ⟨l, json, b1, b2, b3⟩ := ih a2 (a4.trans ht) (a5 ▸ hk) (h1 _ a3)
      refine ⟨(o, none) :: l, json, by simp [b1], .cons h b2, valid_none.2 ⟨ha, hap, fun t' e => ?_⟩⟩
      rw [a3] at e
      cases e
      exact b3
    · obtain ⟨l, json, b1, b2, b3⟩ := ih hd ht hk (h2 hl)
      cases er with
      | none => exact absurd rfl h0
      | some e => exact ⟨(o, some e) :: l, json, by simp [b1], .cons h b2, valid_some.2 ⟨ha, hap, b3⟩⟩

/-! A case: a session on the sample document, in which one call refuses. -/

/-- `Set` in the array, `Add` to it, `Delete` of its first element, `AddKeyValue` of a key that is there, `AddKeyValue` and `SetKey`. -/
def Sample.edits : List (Edit × Option Err) :=
  [(.set [str "b\\\"]", str "1"] (.lit (str "5")), none), (.add [str "b\\\"]"] (.arr [] []), none), (.delete [str "b\\\"]"] (str "0"), none),
    (.addKeyValue [str "o"] (str "r") (.lit (str "0")), some (.keyAlreadyExist (str "r"))), (.addKeyValue [str "o"] (str "s") (.str (str "é")), none),
    (.setKey [] (str "a") (str "z"), none)]

/-- Calls made one after the other, if they answer as said. -/
def runAll : Bytes → List (Edit × Option Err) → Option Bytes
  | json, [] => some json
  | json, (o, er) :: os => match o.run json with
    | .done json' er' => if er' = er then runAll json' os else none
    | .panic => none

theorem session_runAll : ∀ {os : List (Edit × Option Err)} {json json' : Bytes}, runAll json os = some json' → Session json os json'
  | [], _, _, h => by cases h; exact .nil
  | (o, er) :: os, json, json', h => by
    rw [runAll] at h
    split at h
    · rename_i hr
      split at h
      · rename_i he
        subst he
        exact .cons hr (session_runAll h)
      · cases h
    · cases h

theorem Sample.session : Session Sample.doc.render Sample.edits
    (str "\n{\"z\": 1, \"b\\\"]\" :[ 5 , {\"k\":null}, [] ,[]],\"a\":2,\"o\":{ \"p\":{\"q\":true }, \"r\":-1.5e3,\"s\":\"é\"}} ") :=
  session_runAll (by decide +kernel)

def Sample.moreEdits : List (Edit × Option Err) :=
  Sample.edits ++ [(.delete [str "b\\\"]"] (str "2"), none), (.set [str "b\\\"]", str "2"] (.lit (str "7")), none)]

def Sample.moreLeaves : List (List Text × Text) :=
  [([str "z"], str "1"), ([str "b\\\"]", str "0"], str "5"), ([str "b\\\"]", str "1", str "k"], str "null"), ([str "b\\\"]", str "2"], str "7"),
    ([str "a"], str "2"), ([str "o", str "p", str "q"], str "true"), ([str "o", str "r"], str "-1.5e3"), ([str "o", str "s"], str "é")]

theorem Sample.edits_valid : Valid Sample.doc.root.plain Sample.edits = true := by decide +kernel

theorem Sample.edits_follow : (follow Sample.doc.root.plain Sample.edits).map Plain.text =
    some (str "{\"z\":1,\"b\\\"]\":[5,{\"k\":null},[],[]],\"a\":2,\"o\":{\"p\":{\"q\":true},\"r\":-1.5e3,\"s\":\"é\"}}") := by decide +kernel

/-- A session after which the value has no empty container, and `Walk` after it. -/
example : Valid Sample.doc.root.plain Sample.moreEdits = true ∧
    (follow Sample.doc.root.plain Sample.moreEdits).map (fun t => (t.walkable, t.leaves [])) = some (true, Sample.moreLeaves) ∧
    Walk (fun _ => false) ((runAll Sample.doc.render Sample.moreEdits).getD []) (fun (u : List (Bytes × Bytes × List Bytes)) k v p => .ret (u ++ [(k, v, p)]) true none) [] =
      .done (Sample.moreLeaves.map fun l => ((l.1.getLast?.getD [], l.2, l.1) : Bytes × Bytes × List Bytes)) none :=
  ⟨by decide +kernel, by decide +kernel, by decide +kernel⟩

example : ValidAll Sample.doc.root.plain (Sample.edits.map Prod.fst) = true := by decide +kernel

end Jin
