import Verif.Props.Array
import Verif.Props.Add
import Verif.Props.Set
import Verif.Props.Float
import Verif.Props.Scheme
/-!
# Props.Built — C129, C130: lists and objects that are built entry by entry
-/

namespace Jin
open Spec

/-- One call of `f` after the other, each on the text the one before has left, and none reports an error. -/
inductive Adds {α : Type} (f : Bytes → α → Mut) : Bytes → List α → Bytes → Prop
  | nil (t : Bytes) : Adds f t [] t
  | cons {t u z : Bytes} {x : α} {xs : List α} : f t x = .done u none → Adds f u xs z → Adds f t (x :: xs) z

section
variable {d : Doc} {p : List Text} {g : Text} {es : List (Elem Json)}

/-- The element that `Add` appends. -/
def newElem (g : Text) (es : List (Elem Json)) (v : Json) : Elem Json := ⟨if es = [] then g else [], v, []⟩

theorem added_arr (g : Text) (es : List (Elem Json)) (v : Json) : addEnt (.arr g es) (.elem v) = .arr g (es ++ [newElem g es v]) := by
  cases es with
  | nil => rfl
  | cons e es =>
    simp only [addEnt, rents, build, gapOf, newElem]
    simp [toElem]
    exact ⟨rfl, List.map_id _, rfl⟩

theorem adds_ok {α : Type} {f : Bytes → α → Mut} {text : α → Text} (xs : List α)
    (hx : ∀ x ∈ xs, ∃ v : Json, v.wf ∧ (∀ t, f t x = Add t v.render p) ∧ v.content = text x) :
    ∀ {d : Doc} {es : List (Elem Json)}, d.wf → d.get? p = some (.arr g es) →
    ∃ d' : Doc, ∃ more, Adds f d.render xs d'.render ∧ d'.wf ∧ d'.lead = d.lead ∧ d'.trail = d.trail ∧
      d'.get? p = some (.arr g (es ++ more)) ∧ (∀ e ∈ more, e.r = []) ∧ more.map (fun e => e.v.content) = xs.map text := by
  induction xs with
  | nil => exact fun {d es} hd h => ⟨d, [], .nil _, hd, rfl, rfl, by rw [List.append_nil]; exact h, by simp, rfl⟩
  | cons x xs ih =>
    intro d es hd h
    obtain ⟨v, v1, v2, v3⟩ := hx x List.mem_cons_self
    have hw : (Json.arr g es).wf := get_wf p (doc_wf.1 hd).2.1 h
    obtain ⟨a1, -, -⟩ := addEnt_ok hw rfl (x := .elem v) (by rfl) v1
    have hd' : (d.set p (addEnt (.arr g es) (.elem v))).wf := doc_upd_wf (f := fun _ => addEnt (.arr g es) (.elem v)) hd h a1
    have hg : (d.set p (addEnt (.arr g es) (.elem v))).get? p = some (addEnt (.arr g es) (.elem v)) := get_upd p h (fun _ => _)
    have ha := add_ok hd h v
    rw [added_arr] at hg hd' ha
    obtain ⟨d', more, b1, b2, b3, b4, b5, b6, b7⟩ := ih (fun y hy => hx y (List.mem_cons_of_mem _ hy)) hd' hg
    refine ⟨d', newElem g es v :: more, .cons (by rw [v2, ha]) b1, b2, b3, b4, by rw [b5, List.append_assoc]; rfl, ?_, ?_⟩
    · intro e he
      rcases List.mem_cons.1 he with rfl | he
      · rfl
      · exact b6 e he
    · rw [List.map_cons, List.map_cons, b7, ← v3]; rfl

/-- All elements read: the old ones and the new ones. -/
theorem map_read {β : Type} {read : Text → Option β} {dflt : β} {es more : List (Elem Json)} {old new : List β} {texts : List Text}
    (ho : es.map (fun e => read e.v.content) = old.map some) (hm : more.map (fun e => e.v.content) = texts) (hn : texts.map read = new.map some) :
    (∀ e ∈ es ++ more, read e.v.content = some ((read e.v.content).getD dflt)) ∧
      (es ++ more).map (fun e => (read e.v.content).getD dflt) = old ++ new := by
  have h : (es ++ more).map (fun e => read e.v.content) = (old ++ new).map some := by
    rw [List.map_append, List.map_append, ho, ← hn, ← hm, List.map_map]; rfl
  constructor
  · intro e he
    have : read e.v.content ∈ (old ++ new).map some := by rw [← h]; exact List.mem_map.2 ⟨e, he, rfl⟩
    obtain ⟨b, -, hb⟩ := List.mem_map.1 this
    rw [← hb]; rfl
  · have := congrArg (List.map fun o : Option β => o.getD dflt) h
    rw [List.map_map, List.map_map] at this
    rw [show (fun e : Elem Json => (read e.v.content).getD dflt) = (fun o : Option β => o.getD dflt) ∘ fun e : Elem Json => read e.v.content from rfl, this]
    exact List.map_id _

theorem snug_all {es more : List (Elem Json)} (h : ∀ e ∈ es, e.snug) (hm : ∀ e ∈ more, e.r = []) : ∀ e ∈ es ++ more, e.snug := by
  intro e he
  rcases List.mem_append.1 he with he | he
  · exact h e he
  · exact fun _ _ => hm e he

theorem some_left {β : Type} {es more : List (Elem Json)} {xs : List β} {text : β → Text} (hm : more.map (fun e => e.v.content) = xs.map text)
    (h : es ≠ [] ∨ xs ≠ []) : es ++ more ≠ [] := by
  intro e
  obtain ⟨e1, e2⟩ := List.append_eq_nil_iff.1 e
  subst e2
  rcases h with h | h
  · exact h e1
  · exact h (List.map_eq_nil_iff.1 hm.symm)

/-- **C129** Integers: `AddInt` of each of `xs` succeeds, and then `GetIntArray` returns the integers that were there, and `xs`. -/
theorem C129_ints (xs old : List Int) (hd : d.wf) (h : d.get? p = some (.arr g es)) (hp : p = [] → d.lead = [] ∧ d.trail = [])
    (hs : ∀ e ∈ es, e.snug) (ho : es.map (fun e => readInt e.v.content) = old.map some) (hne : es ≠ [] ∨ xs ≠ [])
    (hx : ∀ x ∈ xs, -9223372036854775808 ≤ x ∧ x ≤ 9223372036854775807) :
    ∃ t, Adds (fun t x => AddInt t x p) d.render xs t ∧ GetIntArray t p = .ok (old ++ xs) := by
  obtain ⟨d', more, b1, b2, b3, b4, b5, b6, b7⟩ := adds_ok (f := fun t x => AddInt t x p) (text := itoa) xs
    (fun x _ => ⟨.lit (itoa x), itoa_wf x, fun t => by rw [render_lit]; rfl, render_lit _⟩) hd h
  obtain ⟨c1, c2⟩ := map_read (read := readInt) (dflt := 0) (new := xs) ho b7 (by
    rw [List.map_map]; exact List.map_congr_left fun x hm => readInt_itoa (hx x hm).1 (hx x hm).2)
  refine ⟨_, b1, ?_⟩
  rw [C61_ints_partial b2 b5 (some_left b7 hne) (fun e => by rw [b3, b4]; exact hp e) (snug_all hs b6) _ c1, c2]

/-- **C129** Floating point numbers: the same 64 bits. -/
theorem C129_floats (xs old : List UInt64) (hd : d.wf) (h : d.get? p = some (.arr g es)) (hp : p = [] → d.lead = [] ∧ d.trail = [])
    (hs : ∀ e ∈ es, e.snug) (ho : es.map (fun e => parseFloat e.v.content) = old.map some) (hne : es ≠ [] ∨ xs ≠ [])
    (hx : ∀ x ∈ xs, isNumberOrInf x) :
    ∃ t, Adds (fun t x => AddFloat goFloats t x p) d.render xs t ∧ GetFloatArray goFloats t p = .ok (old ++ xs) := by
  obtain ⟨d', more, b1, b2, b3, b4, b5, b6, b7⟩ := adds_ok (f := fun t x => AddFloat goFloats t x p) (text := formatFloat) xs
    (fun x _ => ⟨.lit (formatFloat x), C128_plain x, fun t => by rw [render_lit]; rfl, render_lit _⟩) hd h
  obtain ⟨c1, c2⟩ := map_read (read := parseFloat) (dflt := 0) (new := xs) ho b7 (by
    rw [List.map_map]; exact List.map_congr_left fun x hm => C128_back x (hx x hm))
  refine ⟨_, b1, ?_⟩
  rw [C61_floats_partial goFloats b2 b5 (some_left b7 hne) (fun e => by rw [b3, b4]; exact hp e) (snug_all hs b6) _ c1, c2]

/-- What stands for a boolean. -/
def readBool (t : Text) : Option Bool := if t = str "true" then some true else if t = str "false" then some false else none

theorem readBool_some {t : Text} {b : Bool} (h : readBool t = some b) : t = if b then str "true" else str "false" := by
  unfold readBool at h
  split at h
  · cases h; assumption
  · split at h
    · cases h; assumption
    · cases h

/-- **C129** Booleans. -/
theorem C129_bools (xs old : List Bool) (hd : d.wf) (h : d.get? p = some (.arr g es)) (hp : p = [] → d.lead = [] ∧ d.trail = [])
    (ho : es.map (fun e => readBool e.v.content) = old.map some) (hne : es ≠ [] ∨ xs ≠ []) :
    ∃ t, Adds (fun t x => AddBool t x p) d.render xs t ∧ GetBoolArray t p = .ok (old ++ xs) := by
  obtain ⟨d', more, b1, b2, b3, b4, b5, b6, b7⟩ := adds_ok (f := fun t x => AddBool t x p) (text := boolText) xs
    (fun x _ => ⟨.lit (boolText x), by cases x <;> decide, fun t => by rw [render_lit]; rfl, render_lit _⟩) hd h
  obtain ⟨c1, c2⟩ := map_read (read := readBool) (dflt := false) (new := xs) ho b7 (by
    rw [List.map_map]; exact List.map_congr_left fun x _ => by cases x <;> decide +kernel)
  refine ⟨_, b1, ?_⟩
  rw [C61_bools b2 b5 (some_left b7 hne) (fun e => by rw [b3, b4]; exact hp e) _ fun e he => readBool_some (c1 e he), c2]

/-- **C129** Strings, each of them string content and not in brackets or braces (those are written as they are). -/
theorem C129_strings (xs : List Text) (hd : d.wf) (h : d.get? p = some (.arr g es)) (hp : p = [] → d.lead = [] ∧ d.trail = [])
    (hs : ∀ e ∈ es, e.snug) (hne : es ≠ [] ∨ xs ≠ []) (hx : ∀ s ∈ xs, PlainText s) :
    ∃ t, Adds (fun t x => AddString parseFloatOk t x p) d.render xs t ∧ GetStringArray t p = .ok (es.map (fun e => e.v.content) ++ xs) := by
  obtain ⟨d', more, b1, b2, b3, b4, b5, b6, b7⟩ := adds_ok (f := fun t x => AddString parseFloatOk t x p) (text := id) xs
    (fun x hm => by
      obtain ⟨v, v1, -, v2, v3⟩ := formatType_value C128_accepts_plain (hx x hm)
      exact ⟨v, v1, fun t => by rw [AddString, v2], v3⟩) hd h
  refine ⟨_, b1, ?_⟩
  rw [C61_strings_partial b2 b5 (some_left b7 hne) (fun e => by rw [b3, b4]; exact hp e) (snug_all hs b6), List.map_append, b7, List.map_id]

end

/-! ### The same text as `make.go` -/

theorem adds_map {α β : Type} {f : Bytes → β → Mut} {k : α → β} {t z : Bytes} {xs : List α} (h : Adds f t (xs.map k) z) :
    Adds (fun t x => f t (k x)) t xs z := by
  induction xs generalizing t with
  | nil => cases h; exact .nil _
  | cons x xs ih => cases h with | cons a b => exact .cons a (ih b)

/-- `Add` of one value after the other to `[]`. -/
theorem adds_bare (more : List Json) (hm : ∀ v ∈ more, v.wf) : ∀ (vs : List Json), (∀ v ∈ vs, v.wf) →
    Adds (fun t x => Add t x []) (⟨[], .arr [] (vs.map bare), []⟩ : Doc).render (more.map Json.render) (⟨[], .arr [] ((vs ++ more).map bare), []⟩ : Doc).render := by
  induction more with
  | nil => intro vs _; rw [List.append_nil]; exact .nil _
  | cons v more ih =>
    intro vs hv
    have h := ih (fun x hx => hm x (List.mem_cons_of_mem _ hx)) (vs ++ [v]) (by
      intro x hx
      rcases List.mem_append.1 hx with hx | hx
      · exact hv x hx
      · rw [List.mem_singleton] at hx; rw [hx]; exact hm v List.mem_cons_self)
    rw [List.append_assoc, List.singleton_append] at h
    refine .cons ?_ h
    have ha := add_ok (p := []) (bare_wf hv) (h := rfl) v
    rw [ha]
    congr 2
    simp only [Doc.set, Json.set, Json.upd, added_arr, List.map_append]
    unfold newElem bare
    simp

theorem adds_makeArr {vs : List Json} (h : ∀ v ∈ vs, v.wf) (hne : vs ≠ []) :
    Adds (fun t x => Add t x []) (str "[]") (vs.map Json.render) (makeArr (some (vs.map Json.render))) := by
  have e : str "[]" = (⟨[], .arr [] (([] : List Json).map bare), []⟩ : Doc).render := by decide +kernel
  rw [e, makeArr_render hne]
  exact adds_bare vs h [] (by simp)

/-- **C130** One element after the other added to `[]` gives the text that `MakeArrayInt`, `MakeArrayBool` and `MakeArrayString` write for the list. -/
theorem C130_arrays :
    (∀ xs : List Int, xs ≠ [] → Adds (fun t x => AddInt t x []) (str "[]") xs (MakeArrayInt (some xs))) ∧
    (∀ xs : List Bool, xs ≠ [] → Adds (fun t x => AddBool t x []) (str "[]") xs (MakeArrayBool (some xs))) ∧
    (∀ xs : List Text, xs ≠ [] → (∀ s ∈ xs, PlainText s) →
      Adds (fun t x => AddString parseFloatOk t x []) (str "[]") xs (MakeArrayString parseFloatOk (some xs))) := by
  refine ⟨fun xs h => ?_, fun xs h => ?_, fun xs h hs => ?_⟩
  · have := adds_makeArr (vs := xs.map fun n => Json.lit (itoa n)) (by simp [itoa_wf]) (by simpa using h)
    rw [List.map_map, show (Json.render ∘ fun n : Int => Json.lit (itoa n)) = itoa from funext fun n => render_lit _] at this
    exact adds_map this
  · have := adds_makeArr (vs := xs.map fun b => Json.lit (boolText b)) (by
      intro v hv
      obtain ⟨b, -, rfl⟩ := List.mem_map.1 hv
      cases b <;> decide) (by simpa using h)
    rw [List.map_map, show (Json.render ∘ fun b : Bool => Json.lit (boolText b)) = boolText from funext fun n => render_lit _] at this
    exact adds_map this
  · obtain ⟨vs, h1, h2⟩ : ∃ vs : List Json, (∀ v ∈ vs, v.wf) ∧ xs.map (formatType parseFloatOk) = vs.map Json.render := by
      clear h
      induction xs with
      | nil => exact ⟨[], by simp, rfl⟩
      | cons x xs ih =>
        obtain ⟨vs, h1, h2⟩ := ih fun s hm => hs s (List.mem_cons_of_mem _ hm)
        obtain ⟨v, v1, -, v2, -⟩ := formatType_value C128_accepts_plain (hs x List.mem_cons_self)
        refine ⟨v :: vs, fun y hy => ?_, by rw [List.map_cons, List.map_cons, h2, v2]⟩
        rcases List.mem_cons.1 hy with rfl | hy
        · exact v1
        · exact h1 y hy
    have := adds_makeArr h1 (by rintro rfl; exact h (List.map_eq_nil_iff.1 h2))
    rw [← h2] at this
    exact adds_map this

theorem bareMs_mem {ks : List Text} {vs : List Json} {m : Member Json} (h : m ∈ bareMs ks vs) : m.v ∈ vs := by
  induction ks generalizing vs with
  | nil => simp [bareMs] at h
  | cons k ks ih =>
    cases vs with
    | nil => simp [bareMs] at h
    | cons v vs =>
      rw [bareMs, List.zipWith_cons_cons] at h
      rcases List.mem_cons.1 h with rfl | h
      · exact List.mem_cons_self
      · exact List.mem_cons_of_mem _ (ih h)

theorem added_obj {ks : List Text} {vs : List Json} (hl : ks.length = vs.length) (k : Text) (v : Json) :
    addEnt (.obj [] (bareMs ks vs)) (.member k [] [] v) = .obj [] (bareMs (ks ++ [k]) (vs ++ [v])) := by
  have e : bareMs (ks ++ [k]) (vs ++ [v]) = bareMs ks vs ++ [bareM k v] := by
    unfold bareMs; rw [List.zipWith_append hl]; rfl
  rw [e]
  generalize bareMs ks vs = ms
  cases ms with
  | nil => rfl
  | cons m ms =>
    simp only [addEnt, rents, build, gapOf]
    simp [toMember]
    exact ⟨List.map_id _, rfl⟩

/-- `AddKeyValue` of one scalar after the other to `{}`. -/
theorem adds_bareM (more : List Json) : ∀ (ks' ks : List Text) (vs : List Json), ks.length = vs.length → ks'.length = more.length →
    (∀ v ∈ vs, v.wf ∧ v.isContainer = false) → (∀ v ∈ more, v.wf ∧ v.isContainer = false) → (ks ++ ks').Nodup → (∀ k ∈ ks ++ ks', strOk k) →
    Adds (fun t (x : Text × Text) => AddKeyValue t x.1 (some x.2) []) (bareObj ks vs).render (ks'.zip (more.map Json.render))
      (bareObj (ks ++ ks') (vs ++ more)).render := by
  induction more with
  | nil =>
    intro ks' ks vs hl hl' _ _ _ _
    have : ks' = [] := List.eq_nil_of_length_eq_zero hl'
    subst this
    rw [List.append_nil, List.append_nil]; exact .nil _
  | cons v more ih =>
    intro ks' ks vs hl hl' hv hm hn hk
    cases ks' with
    | nil => cases hl'
    | cons k ks' =>
      have hvs : ∀ x ∈ vs ++ [v], x.wf ∧ x.isContainer = false := by
        intro x hx
        rcases List.mem_append.1 hx with hx | hx
        · exact hv x hx
        · rw [List.mem_singleton] at hx; rw [hx]; exact hm v List.mem_cons_self
      have h := ih ks' (ks ++ [k]) (vs ++ [v]) (by simp [hl]) (by simpa using hl') hvs (fun x hx => hm x (List.mem_cons_of_mem _ hx))
        (by rw [List.append_assoc]; exact hn) (by rw [List.append_assoc]; exact hk)
      rw [List.append_assoc, List.append_assoc, List.singleton_append, List.singleton_append] at h
      rw [List.map_cons, List.zip_cons_cons]
      refine .cons ?_ h
      have hd : (bareObj ks vs).wf := bareObj_wf (fun x hx => hk x (List.mem_append_left _ hx)) fun x hx => (hv x hx).1
      have hnew : ∀ m ∈ bareMs ks vs, m.key ≠ k := by
        intro m hmm e
        have : k ∈ ks := by rw [← bareMs_keys hl]; exact List.mem_map.2 ⟨m, hmm, e⟩
        exact (List.nodup_append.1 hn).2.2 k this k List.mem_cons_self rfl
      have hclear : (bareObj ks vs).clear [] k := by
        left
        unfold Json.missOk
        simp only [List.getLast?_nil]
        split
        · rfl
        · rename_i e he
          have : e ∈ (bareObj ks vs).root.entries := List.mem_of_getLast? he
          obtain ⟨m, m1, rfl⟩ := List.mem_map.1 this
          show (!m.v.isContainer || _) = true
          rw [(hv _ (bareMs_mem m1)).2]; rfl
      have ha := addkv_ok (p := []) hd (h := rfl) (.inr ⟨_, core_clear hd rfl (memberIdx_absent hnew) hclear _, errEqual_keyNotFound k⟩) v
      rw [ha, added_obj hl]
      rfl

/-- **C130** One member after the other added to `{}` gives the text that `MakeJsonString` writes for the keys and values; keys not empty and all
different, values plain text. -/
theorem C130_objects (ks ss : List Text) (hl : ks.length = ss.length) (hne : ks ≠ []) (hn : ks.Nodup) (hk : ∀ k ∈ ks, k ≠ [] ∧ strOk k)
    (hs : ∀ s ∈ ss, PlainText s) :
    Adds (fun t (x : Text × Text) => AddKeyValueString parseFloatOk t x.1 x.2 []) (str "{}") (ks.zip ss) (MakeJsonString parseFloatOk (some ks) ss) := by
  obtain ⟨vs, h1, h2⟩ : ∃ vs : List Json, (∀ v ∈ vs, v.wf ∧ v.isContainer = false) ∧ ss.map (formatType parseFloatOk) = vs.map Json.render := by
    clear hl
    induction ss with
    | nil => exact ⟨[], by simp, rfl⟩
    | cons x xs ih =>
      obtain ⟨vs, h1, h2⟩ := ih fun s hm => hs s (List.mem_cons_of_mem _ hm)
      obtain ⟨v, v1, v0, v2, -⟩ := formatType_value C128_accepts_plain (hs x List.mem_cons_self)
      refine ⟨v :: vs, fun y hy => ?_, by rw [List.map_cons, List.map_cons, h2, v2]⟩
      rcases List.mem_cons.1 hy with rfl | hy
      · exact ⟨v1, v0⟩
      · exact h1 y hy
  have hl' : ks.length = vs.length := by
    have := congrArg List.length h2
    simp only [List.length_map] at this
    omega
  have e : str "{}" = (bareObj [] []).render := by decide +kernel
  have h := adds_bareM vs ks [] [] rfl hl' (by simp) h1 hn fun k hm => (hk k hm).2
  rw [List.nil_append, List.nil_append, ← makeObj_render hl' hne, ← h2] at h
  rw [e, MakeJsonString, if_neg (by simp [hl])]
  generalize (bareObj [] []).render = t at h
  generalize makeObj (ks.zip (ss.map (formatType parseFloatOk))) = z at h
  clear e hl' h1 h2 hs hne hn
  induction ks generalizing ss t with
  | nil => cases h; exact .nil _
  | cons k ks ih =>
    cases ss with
    | nil => cases hl
    | cons s ss =>
      rw [List.map_cons, List.zip_cons_cons] at h
      rw [List.zip_cons_cons]
      cases h with
      | cons a b =>
        refine .cons ?_ (ih ss (by simpa using hl) (fun k hm => hk k (List.mem_cons_of_mem _ hm)) _ b)
        unfold AddKeyValueString
        rw [if_neg (by simpa using (hk k List.mem_cons_self).1)]
        exact a

/-- Cases of the hypotheses. -/
example : Adds (fun t x => AddInt t x []) (str "[]") [1, -20, 3] (str "[1,-20,3]") := by
  have e : str "[1,-20,3]" = MakeArrayInt (some [1, -20, 3]) := by decide +kernel
  rw [e]
  exact C130_arrays.1 [1, -20, 3] (by decide)

example : Adds (fun t (x : Text × Text) => AddKeyValueString parseFloatOk t x.1 x.2 []) (str "{}") [(str "a", str "1"), (str "b c", str "x, y")]
    (str "{\"a\":1,\"b c\":\"x, y\"}") := by
  have h := C130_objects [str "a", str "b c"] [str "1", str "x, y"] rfl (by decide) (by decide +kernel) (by decide +kernel) (by
    intro s hs
    simp only [List.mem_cons, List.not_mem_nil, or_false] at hs
    rcases hs with hs | hs <;> rw [hs] <;> exact ⟨by decide +kernel, by decide +kernel, by decide +kernel⟩)
  have e : MakeJsonString parseFloatOk (some [str "a", str "b c"]) [str "1", str "x, y"] = str "{\"a\":1,\"b c\":\"x, y\"}" := by decide +kernel
  rw [e] at h
  exact h

/-- The array `[ 1 , 2 ]` under `k`. -/
def Sample.list : Doc :=
  ⟨[], .obj [] [⟨[], str "k", [], [], .arr [] [⟨[32], .lit (str "1"), [32]⟩, ⟨[32], .lit (str "2"), [32]⟩], []⟩], []⟩
/-- An array with nothing but a space. -/
def Sample.space : Doc := ⟨[], .arr [32] [], []⟩

/-- A case of the hypotheses, with elements before. -/
example : ∃ t, Adds (fun t x => AddInt t x [str "k"]) (str "{\"k\":[ 1 , 2 ]}") [-3, 40] t ∧ GetIntArray t [str "k"] = .ok [1, 2, -3, 40] := by
  have e : str "{\"k\":[ 1 , 2 ]}" = Sample.list.render := by decide +kernel
  rw [e]
  exact C129_ints (g := []) (es := [⟨[32], .lit (str "1"), [32]⟩, ⟨[32], .lit (str "2"), [32]⟩]) [-3, 40] [1, 2] (by decide +kernel)
    (by decide +kernel) (by decide) (by decide +kernel) (by decide +kernel) (by decide) (by decide)

/-- … and lists that are begun: floating point numbers, booleans and strings. -/
example : (∃ t, Adds (fun t x => AddFloat goFloats t x []) (str "[ ]") (Sample.floats.map Prod.fst) t ∧
      GetFloatArray goFloats t [] = .ok (Sample.floats.map Prod.fst)) ∧
    (∃ t, Adds (fun t x => AddBool t x []) (str "[ ]") [true, false] t ∧ GetBoolArray t [] = .ok [true, false]) ∧
    ∃ t, Adds (fun t x => AddString parseFloatOk t x []) (str "[ ]") [str "a, b", str "7", str ""] t ∧
      GetStringArray t [] = .ok [str "a, b", str "7", str ""] := by
  have e : str "[ ]" = Sample.space.render := by decide +kernel
  rw [e]
  have hd : Sample.space.wf := by decide +kernel
  have h : Sample.space.get? [] = some (.arr [32] []) := by decide +kernel
  refine ⟨C129_floats (Sample.floats.map Prod.fst) [] hd h (fun _ => ⟨rfl, rfl⟩) (by simp) rfl (.inr (by decide +kernel)) (by decide +kernel),
    C129_bools [true, false] [] hd h (fun _ => ⟨rfl, rfl⟩) rfl (.inr (by decide)),
    C129_strings [str "a, b", str "7", str ""] hd h (fun _ => ⟨rfl, rfl⟩) (by simp) (.inr (by decide +kernel)) fun s hs => ?_⟩
  simp only [List.mem_cons, List.not_mem_nil, or_false] at hs
  rcases hs with hs | hs | hs <;> rw [hs] <;> exact ⟨by decide +kernel, by decide +kernel, by decide +kernel⟩

end Jin
