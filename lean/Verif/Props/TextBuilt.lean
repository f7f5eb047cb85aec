import Verif.Props.Built
import Verif.Props.TextFloat
/-!
# Properties C129 and C130 for the text: lists and objects that are built entry by entry
-/

namespace Jin.Go
open Spec

/-- `f(t, x, p…)` for one `x` after the other, each on the text the call before has left, and none reports an error. -/
inductive AddCalls (f : Id) (p : List Text) : Bytes → List Val → Bytes → Prop
  | nil (t : Bytes) : AddCalls f p t [] t
  | cons {t u z : Bytes} {x : Val} {xs : List Val} : Call goFloats f [.bytes t, x] p (.ok [.bytes u, .nil]) → AddCalls f p u xs z →
      AddCalls f p t (x :: xs) z

theorem adds_calls {α : Type} {m : Bytes → α → Mut} {f : Id} {p : List Text} {val : α → Val}
    (h : ∀ t x, Call goFloats f [.bytes t, val x] p (mutVals (m t x))) {t z : Bytes} {xs : List α} (ha : Adds m t xs z) :
    AddCalls f p t (xs.map val) z := by
  induction ha with
  | nil t => exact .nil t
  | cons e _ ih => exact .cons ((h _ _).done e) ih

theorem accepts_eq : (fun s => (goFloats.parse s).isSome) = parseFloatOk := funext C128_accepts

section
variable {d : Doc} {p : List Text} {g : Text} {es : List (Elem Json)}

/-- **C129** Integers: `AddInt` of each of `xs` succeeds, and then `GetIntArray` returns the integers that were there, and `xs`. -/
theorem C129_text_ints (xs old : List Int) (hd : d.wf) (h : d.get? p = some (.arr g es)) (hp : p = [] → d.lead = [] ∧ d.trail = [])
    (hs : ∀ e ∈ es, e.snug) (ho : es.map (fun e => readInt e.v.content) = old.map some) (hne : es ≠ [] ∨ xs ≠ [])
    (hx : ∀ x ∈ xs, -9223372036854775808 ≤ x ∧ x ≤ 9223372036854775807) :
    ∃ t, AddCalls (go% AddInt) p d.render (xs.map .int) t ∧ Call goFloats (go% GetIntArray) [.bytes t] p (.ok [.ints (old ++ xs), .nil]) := by
  obtain ⟨t, h1, h2⟩ := C129_ints xs old hd h hp hs ho hne hx
  exact ⟨t, adds_calls (fun t x => text_AddInt _ t p x) h1, (text_GetIntArray _ t p).one h2⟩

/-- **C129** Floating point numbers: the same 64 bits. -/
theorem C129_text_floats (xs old : List UInt64) (hd : d.wf) (h : d.get? p = some (.arr g es)) (hp : p = [] → d.lead = [] ∧ d.trail = [])
    (hs : ∀ e ∈ es, e.snug) (ho : es.map (fun e => parseFloat e.v.content) = old.map some) (hne : es ≠ [] ∨ xs ≠ [])
    (hx : ∀ x ∈ xs, isNumberOrInf x) :
    ∃ t, AddCalls (go% AddFloat) p d.render (xs.map .float) t ∧ Call goFloats (go% GetFloatArray) [.bytes t] p (.ok [.floats (old ++ xs), .nil]) := by
  obtain ⟨t, h1, h2⟩ := C129_floats xs old hd h hp hs ho hne hx
  exact ⟨t, adds_calls (fun t x => text_AddFloat _ t p x) h1, (text_GetFloatArray _ t p).one h2⟩

/-- **C129** Booleans. -/
theorem C129_text_bools (xs old : List Bool) (hd : d.wf) (h : d.get? p = some (.arr g es)) (hp : p = [] → d.lead = [] ∧ d.trail = [])
    (ho : es.map (fun e => readBool e.v.content) = old.map some) (hne : es ≠ [] ∨ xs ≠ []) :
    ∃ t, AddCalls (go% AddBool) p d.render (xs.map .bool) t ∧ Call goFloats (go% GetBoolArray) [.bytes t] p (.ok [.bools (old ++ xs), .nil]) := by
  obtain ⟨t, h1, h2⟩ := C129_bools xs old hd h hp ho hne
  exact ⟨t, adds_calls (fun t x => text_AddBool _ t p x) h1, (text_GetBoolArray _ t p).one h2⟩

/-- **C129** Strings, each of them string content and not in brackets or braces. -/
theorem C129_text_strings (xs : List Text) (hd : d.wf) (h : d.get? p = some (.arr g es)) (hp : p = [] → d.lead = [] ∧ d.trail = [])
    (hs : ∀ e ∈ es, e.snug) (hne : es ≠ [] ∨ xs ≠ []) (hx : ∀ s ∈ xs, PlainText s) :
    ∃ t, AddCalls (go% AddString) p d.render (xs.map .bytes) t ∧
      Call goFloats (go% GetStringArray) [.bytes t] p (.ok [.strs (es.map (fun e => e.v.content) ++ xs), .nil]) := by
  obtain ⟨t, h1, h2⟩ := C129_strings xs hd h hp hs hne hx
  refine ⟨t, adds_calls (fun t x => ?_) h1, (text_GetStringArray _ t p).one h2⟩
  have := text_AddString goFloats t p x
  rw [accepts_eq] at this
  exact this

end

/-! ### C130 -/

/-- **C130** One element after the other added to `[]` gives the text that `MakeArrayInt`, `MakeArrayBool` and `MakeArrayString` write for the list. -/
theorem C130_text_arrays :
    (∀ xs : List Int, xs ≠ [] → ∃ t, AddCalls (go% AddInt) [] (str "[]") (xs.map .int) t ∧ Call1 goFloats (go% MakeArrayInt) [.ints xs] (.ok [.bytes t])) ∧
    (∀ xs : List Bool, xs ≠ [] → ∃ t, AddCalls (go% AddBool) [] (str "[]") (xs.map .bool) t ∧ Call1 goFloats (go% MakeArrayBool) [.bools xs] (.ok [.bytes t])) ∧
    (∀ xs : List Text, xs ≠ [] → (∀ s ∈ xs, PlainText s) →
      ∃ t, AddCalls (go% AddString) [] (str "[]") (xs.map .bytes) t ∧ Call1 goFloats (go% MakeArrayString) [.strs xs] (.ok [.bytes t])) := by
  obtain ⟨h1, h2, h3⟩ := C130_arrays
  refine ⟨fun xs h => ⟨_, adds_calls (fun t x => text_AddInt _ t [] x) (h1 xs h), text_MakeArrayInt _ (some xs)⟩,
    fun xs h => ⟨_, adds_calls (fun t x => text_AddBool _ t [] x) (h2 xs h), text_MakeArrayBool _ (some xs)⟩,
    fun xs h hs => ⟨_, adds_calls (fun t x => ?_) (h3 xs h hs), ?_⟩⟩
  · have := text_AddString goFloats t [] x
    rw [accepts_eq] at this
    exact this
  · have := text_MakeArrayString goFloats (some xs)
    rw [accepts_eq] at this
    exact this

/-- `AddKeyValueString(t, k, v)` for one key and value after the other, and none reports an error. -/
inductive AddMembers : Bytes → List (Bytes × Bytes) → Bytes → Prop
  | nil (t : Bytes) : AddMembers t [] t
  | cons {t u z k v : Bytes} {xs : List (Bytes × Bytes)} : Call goFloats (go% AddKeyValueString) [.bytes t, .bytes k, .bytes v] [] (.ok [.bytes u, .nil]) →
      AddMembers u xs z → AddMembers t ((k, v) :: xs) z

/-- **C130** One member after the other added to `{}` gives the text that `MakeJsonString` writes for the keys and values; keys not empty and all
different, values plain text. -/
theorem C130_text_objects (ks ss : List Text) (hl : ks.length = ss.length) (hne : ks ≠ []) (hn : ks.Nodup) (hk : ∀ k ∈ ks, k ≠ [] ∧ strOk k)
    (hs : ∀ s ∈ ss, PlainText s) :
    ∃ t, AddMembers (str "{}") (ks.zip ss) t ∧ Call1 goFloats (go% MakeJsonString) [.strs ks, .strs ss] (.ok [.bytes t]) := by
  refine ⟨MakeJsonString parseFloatOk (some ks) ss, ?_, ?_⟩
  · have h := C130_objects ks ss hl hne hn hk hs
    have hz : ∀ x ∈ ks.zip ss, x.1 ≠ [] := fun x hx => (hk x.1 (List.of_mem_zip hx).1).1
    generalize MakeJsonString parseFloatOk (some ks) ss = z at h
    generalize str "{}" = t at h
    generalize ks.zip ss = xs at h hz
    clear hl hne hn hk hs
    induction h with
    | nil t => exact .nil t
    | @cons t u z x xs a b ih =>
      refine .cons ?_ (ih fun y hy => hz y (List.mem_cons_of_mem _ hy))
      have := text_AddKeyValueString goFloats t [] x.1 x.2
      rw [accepts_eq, if_neg (by simpa using hz x List.mem_cons_self)] at this
      exact this.done a
  · have := text_MakeJsonString goFloats (some ks) ss
    rw [accepts_eq, if_pos (by simpa using hl)] at this
    exact this

/-- A case of the hypotheses: `5`, `12.5` and an infinity in the array `[0.5]`. -/
example : ∃ t, AddCalls (go% AddFloat) [] (str "[0.5]") ([0x4014000000000000, 0x4029000000000000, 0x7FF0000000000000].map .float) t ∧
    Call goFloats (go% GetFloatArray) [.bytes t] []
      (.ok [.floats [0x3FE0000000000000, 0x4014000000000000, 0x4029000000000000, 0x7FF0000000000000], .nil]) := by
  have e : str "[0.5]" = (⟨[], .arr [] [⟨[], .lit (str "0.5"), []⟩], []⟩ : Doc).render := by decide +kernel
  rw [e]
  exact C129_text_floats (g := []) (es := [⟨[], .lit (str "0.5"), []⟩]) _ [0x3FE0000000000000] (by decide +kernel) (by decide +kernel)
    (fun _ => ⟨rfl, rfl⟩) (by decide +kernel) (by decide +kernel) (.inl (by decide)) (by decide +kernel)

/-- … and of C130. -/
example : ∃ t, AddMembers (str "{}") [(str "a", str "1"), (str "b c", str "x, y")] t ∧
    Call1 goFloats (go% MakeJsonString) [.strs [str "a", str "b c"], .strs [str "1", str "x, y"]] (.ok [.bytes t]) :=
  C130_text_objects [str "a", str "b c"] [str "1", str "x, y"] rfl (by decide) (by decide +kernel) (by decide +kernel) (by
    intro s hs
    simp only [List.mem_cons, List.not_mem_nil, or_false] at hs
    rcases hs with hs | hs <;> rw [hs] <;> exact ⟨by decide +kernel, by decide +kernel, by decide +kernel⟩)

end Jin.Go
