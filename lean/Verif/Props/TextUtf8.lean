import Verif.Props.TextMore
import Verif.Go.JO
import Verif.Props.Utf8Make
/-!
# Property C121: UTF-8 in and out of the text

C116 for the text of /repo (`Verif.Go.Source`): whatever a call returns is UTF-8 if what it was given is.
-/

namespace Jin.Go
open Spec

/-- All texts in the value are UTF-8. -/
def Val.utf8 : Val → Prop
  | .bytes b => Utf8 b
  | .strs l => ∀ w ∈ l, Utf8 w
  | .map m => ∀ e ∈ m, Utf8 e.1 ∧ Utf8 e.2
  | _ => True

/-- Whatever the call returns is UTF-8. -/
def GivesUtf8 (fl : FloatLib UInt64) (f : Id) (args : List Val) (path : List Bytes) : Prop :=
  ∀ vs, Call fl f args path (.ok vs) → ∀ v ∈ vs, v.utf8

theorem mut_utf8 {fl : FloatLib UInt64} {f : Id} {args : List Val} {path : List Bytes} {m : Mut} (h : Call fl f args path (mutVals m))
    (hm : ∀ out er, m = .done out er → Utf8 out) : GivesUtf8 fl f args path := by
  intro vs hv v hm'
  have e := h.unique hv
  rcases m with ⟨b, _ | er⟩ | _ <;> simp only [mutVals, R.ok.injEq, reduceCtorEq] at e <;> subst e <;>
    simp only [List.mem_cons, List.not_mem_nil, or_false] at hm' <;> rcases hm' with rfl | rfl <;>
    first | exact hm _ _ rfl | trivial

theorem one_utf8 {fl : FloatLib UInt64} {f : Id} {args : List Val} {path : List Bytes} {α : Type} {g : α → Val} {bad : Val} {m : Out α}
    (h : Call fl f args path (oneVal g bad m)) (hb : bad.utf8) (hm : ∀ a, m = .ok a → (g a).utf8) : GivesUtf8 fl f args path := by
  intro vs hv v hm'
  have e := h.unique hv
  cases m <;> simp only [oneVal, R.ok.injEq, reduceCtorEq] at e <;> subst e <;>
    simp only [List.mem_cons, List.not_mem_nil, or_false] at hm' <;> rcases hm' with rfl | rfl <;>
    first | exact hm _ rfl | exact hb | trivial

theorem nilStrs_utf8 {l : List Bytes} (h : ∀ w ∈ l, Utf8 w) : (nilStrs l).utf8 := by
  cases l with
  | nil => trivial
  | cons => exact h

theorem typeName_utf8 (t : JType) : Utf8 (typeName t) := by
  cases t <;> exact .ascii (by decide)

/-- **C121** The readers and `Delete` on a text that is UTF-8, with any path. -/
theorem C121_readers (fl : FloatLib UInt64) {json : Bytes} (hu : Utf8 json) (path : List Bytes) :
    ∀ f ∈ readers, GivesUtf8 fl f [.bytes json] path := by
  have nil : Utf8 [] := .ascii (by simp)
  simp only [readers, List.mem_cons, List.not_mem_nil, or_false]
  rintro f (rfl | rfl | rfl | rfl | rfl | rfl | rfl | rfl | rfl | rfl | rfl | rfl | rfl | rfl | rfl | rfl | rfl | rfl | rfl)
  · exact one_utf8 (text_Get fl json path) trivial fun a h => C116_get hu h
  · exact one_utf8 (text_GetString fl json path) nil fun a h => C116_get hu (by rwa [GetString] at h)
  · exact one_utf8 (text_GetInt fl json path) trivial fun a h => trivial
  · exact one_utf8 (text_GetFloat fl json path) trivial fun a h => trivial
  · exact one_utf8 (text_GetBool fl json path) trivial fun a h => trivial
  · exact one_utf8 (text_GetIntArray fl json path) trivial fun a h => trivial
  · exact one_utf8 (text_GetFloatArray fl json path) trivial fun a h => trivial
  · exact one_utf8 (text_GetBoolArray fl json path) trivial fun a h => trivial
  · exact one_utf8 (text_GetStringArray fl json path) trivial fun a h => (C116_arrays hu).2 path a h
  · exact one_utf8 (text_GetKeys fl json path) trivial fun a h => nilStrs_utf8 ((C116_members hu).1 a h)
  · exact one_utf8 (text_GetValues fl json path) trivial fun a h => nilStrs_utf8 ((C116_members hu).2.1 a h)
  · intro vs hv v hm
    have e := (text_GetKeysValues fl json path).unique hv
    rcases hk : GetKeysValues json path with ⟨a, b⟩ | _ | _ <;> rw [hk] at e <;> simp only [pairVals, R.ok.injEq, reduceCtorEq] at e <;> subst e <;>
      simp only [List.mem_cons, List.not_mem_nil, or_false] at hm <;> rcases hm with rfl | rfl | rfl <;> try trivial
    · exact nilStrs_utf8 ((C116_members hu).2.2 a b hk).1
    · exact nilStrs_utf8 ((C116_members hu).2.2 a b hk).2
  · exact one_utf8 (text_Length fl json path) trivial fun a h => trivial
  · exact one_utf8 (text_IsObject fl json path) trivial fun a h => trivial
  · exact one_utf8 (text_IsArray fl json path) trivial fun a h => trivial
  · exact one_utf8 (text_IsValue fl json path) trivial fun a h => trivial
  · exact one_utf8 (text_GetType fl json path) nil fun a h => typeName_utf8 a
  · exact one_utf8 (text_IsEmpty fl json path) trivial fun a h => trivial
  · exact mut_utf8 (text_Delete fl json path) fun out er h => C116_delete hu h

/-- **C121** The mutators, on every UTF-8 text, key and value (or nil), with any path. -/
theorem C121_mutators (fl : FloatLib UInt64) {json key : Bytes} {v : Option Bytes} (hu : Utf8 json) (hk : Utf8 key) (hv : (optBytes v).utf8)
    (index : Int) (path : List Bytes) :
    GivesUtf8 fl (go% Set) [.bytes json, optBytes v] path ∧
    GivesUtf8 fl (go% Add) [.bytes json, optBytes v] path ∧
    GivesUtf8 fl (go% AddKeyValue) [.bytes json, .bytes key, optBytes v] path ∧
    GivesUtf8 fl (go% Insert) [.bytes json, .int index, optBytes v] path ∧
    GivesUtf8 fl (go% Store) [.bytes json, .bytes key, optBytes v] path ∧
    GivesUtf8 fl (go% SetKey) [.bytes json, .bytes key] path := by
  have hv' : ∀ x, v = some x → Utf8 x := by rintro x rfl; exact hv
  have hg : Utf8 (v.getD []) := by
    cases v with
    | none => exact .ascii (by simp)
    | some x => exact hv
  exact ⟨mut_utf8 (text_Set fl json path v) fun _ _ h => C116_set hu hg h, mut_utf8 (text_Add fl json path v) fun _ _ h => C116_add hu hg h,
    mut_utf8 (text_AddKeyValue fl json path key v) fun _ _ h => C116_addKeyValue hu hk hv' h,
    mut_utf8 (text_Insert fl json path index v) fun _ _ h => C116_insert hu hg h,
    mut_utf8 (text_Store fl json path key v) fun _ _ h => C116_store hu hk hv' h,
    mut_utf8 (text_SetKey fl json path key) fun _ _ h => C116_setKey hu hk h⟩

/-- **C121** The mutators that take a text and write it as a string or a literal. -/
theorem C121_strings (fl : FloatLib UInt64) {json v : Bytes} (hu : Utf8 json) (hv : Utf8 v) (path : List Bytes) :
    GivesUtf8 fl (go% SetString) [.bytes json, .bytes v] path ∧ GivesUtf8 fl (go% AddString) [.bytes json, .bytes v] path :=
  ⟨mut_utf8 (text_SetString fl json path v) fun _ _ h => C116_set hu (formatType_utf8 hv) (by rwa [SetString] at h),
    mut_utf8 (text_AddString fl json path v) fun _ _ h => C116_add hu (formatType_utf8 hv) (by rwa [AddString] at h)⟩

/-- **C121** Every method of `JO` that changes the object; `FormatFloat` is assumed to give UTF-8. -/
theorem C121_jo (fl : FloatLib UInt64) (hfl : ∀ x, Utf8 (fl.format x)) {body : Bytes} (hu : Utf8 body) (op : JOp UInt64)
    (ha : ∀ v ∈ (joCall op).2.1, v.utf8) : GivesUtf8 fl (joCall op).1 (.bytes body :: (joCall op).2.1) (joCall op).2.2 := by
  have ht : ∀ t ∈ op.texts, Utf8 t := by
    intro t h
    have o : ∀ {x : Option Bytes}, t ∈ x.toList → (optBytes x).utf8 → Utf8 t := by
      intro x hx hv
      cases x with
      | none => simp at hx
      | some x => simp only [Option.toList_some, List.mem_singleton] at hx; subst hx; exact hv
    cases op <;> simp only [JOp.texts, List.mem_cons, List.not_mem_nil, or_false] at h <;>
      first
      | (rcases h with rfl | h
         · exact ha (.bytes _) (by simp [joCall])
         · exact o h (ha _ (by simp [joCall])))
      | (rcases h with rfl | rfl <;> exact ha (.bytes _) (by simp [joCall]))
      | (subst h; exact ha (.bytes _) (by simp [joCall]))
  intro vs hv v hm
  have e := (text_JO_step (fl := fl) ⟨body⟩ op).unique hv
  have key : ∀ {out er}, JO.step fl ⟨body⟩ op = .done out er → Utf8 out := fun h => C116_step hfl hu ht h
  unfold joVals at e
  rcases hs : JO.step fl ⟨body⟩ op with ⟨b, _ | er⟩ | _ <;> rw [hs] at e <;> split at e <;>
    simp only [mutVals, R.ok.injEq, reduceCtorEq] at e <;> subst e <;>
    simp only [List.mem_cons, List.not_mem_nil, or_false] at hm <;> rcases hm with rfl | rfl <;>
    first | exact key hs | trivial

/-- **C121** `GetAll`, `GetMap` and `GetAllMap`. -/
theorem C121_maps (fl : FloatLib UInt64) {json : Bytes} (hu : Utf8 json) (path keys : List Bytes) :
    GivesUtf8 fl (go% GetAll) [.bytes json, .strs keys] path ∧ GivesUtf8 fl (go% GetMap) [.bytes json] path ∧
    ((∀ k ∈ keys, Utf8 k) → GivesUtf8 fl (go% GetAllMap) [.bytes json, .strs keys] path) := by
  refine ⟨one_utf8 (text_GetAll fl json path keys) trivial fun a h => C116_getAll hu h, one_utf8 (text_GetMap json path) trivial fun a h => ?_,
    fun hk => one_utf8 (text_GetAllMap json path keys) trivial fun a h => C116_getAllMap hu hk h⟩
  cases a with
  | none => trivial
  | some m => exact C116_getMap hu h

/-- **C121** `Flatten` and `Indent`. -/
theorem C121_format (fl : FloatLib UInt64) {json : Bytes} (hu : Utf8 json) :
    (∀ t, Call1 fl (go% Flatten) [.bytes json] (.ok [.bytes t]) → Utf8 t) ∧ (∀ t, Call1 fl (go% Indent) [.bytes json] (.ok [.bytes t]) → Utf8 t) := by
  refine ⟨fun t h => ?_, fun t h => ?_⟩
  · have e := (text_Flatten fl json).unique h
    simp only [R.ok.injEq, List.cons.injEq, Val.bytes.injEq, and_true] at e
    exact e ▸ C116_flatten hu
  · have e := (text_Indent fl json).unique h
    cases hi : Indent json with
    | ok w =>
      rw [hi] at e
      simp only [justVal, R.ok.injEq, List.cons.injEq, Val.bytes.injEq, and_true] at e
      exact e ▸ C116_indent hu hi
    | err _ => rw [hi] at e; cases e
    | panic => rw [hi] at e; cases e

/-- **C121** The functions that build a text from texts: if what they are given is UTF-8, they write UTF-8. -/
theorem C121_make (fl : FloatLib UInt64) {ks vs : List Bytes} (hk : ∀ k ∈ ks, Utf8 k) (hv : ∀ v ∈ vs, Utf8 v) :
    (∀ t, Call1 fl (go% MakeArrayString) [.strs vs] (.ok [.bytes t]) → Utf8 t) ∧
    (∀ t, Call1 fl (go% MakeJsonString) [.strs ks, .strs vs] (.ok [.bytes t]) → Utf8 t) ∧
    (∀ es t, (∀ e ∈ es, Utf8 e.1 ∧ Utf8 e.2) → Call1 fl (go% MakeJsonWithMap) [.map es] (.ok [.bytes t]) → Utf8 t) := by
  obtain ⟨-, h2, -, -, h5, h6⟩ := C116_make (isFloat := fun s => (fl.parse s).isSome)
  refine ⟨fun t h => ?_, fun t h => ?_, fun es t he h => ?_⟩
  · have e := (text_MakeArrayString fl (some vs)).unique h
    simp only [R.ok.injEq, List.cons.injEq, Val.bytes.injEq, and_true] at e
    exact e ▸ (h2 vs hv).1
  · have e := (text_MakeJsonString fl (some ks) vs).unique h
    split at e <;> simp only [R.ok.injEq, List.cons.injEq, Val.bytes.injEq, and_true, reduceCtorEq] at e
    exact e ▸ h5 ks vs hk hv
  · have e := (text_MakeJsonWithMap (fl := fl) (some es)).unique h
    simp only [R.ok.injEq, List.cons.injEq, Val.bytes.injEq, and_true] at e
    exact e ▸ h6 es he

/-- **C121** The iterators and `Walk` hand UTF-8 to the function they call: two functions that do the same on UTF-8 make the
same call end the same way. -/
theorem C121_iterate {σ : Type} (fl : FloatLib UInt64) {json : Bytes} (hu : Utf8 json) (path : List Bytes) (u : σ) :
    (∀ cb cb' : σ → Bytes → Cb σ, (∀ u v, Utf8 v → cb u v = cb' u v) →
      ∃ r, CallCb fl (cb1 cb) (go% IterateArray) ([.bytes json, .nil] ++ path.map .bytes) u r ∧
        CallCb fl (cb1 cb') (go% IterateArray) ([.bytes json, .nil] ++ path.map .bytes) u r) ∧
    (∀ cb cb' : σ → Bytes → Bytes → Cb σ, (∀ u k v, Utf8 k → Utf8 v → cb u k v = cb' u k v) →
      ∃ r, CallCb fl (cb2 cb) (go% IterateKeyValue) ([.bytes json, .nil] ++ path.map .bytes) u r ∧
        CallCb fl (cb2 cb') (go% IterateKeyValue) ([.bytes json, .nil] ++ path.map .bytes) u r) ∧
    (∀ cb cb' : σ → Bytes → Bytes → List Bytes → Cb σ,
      (∀ u k v p, Utf8 k → Utf8 v → (∀ x ∈ p, Utf8 x) → cb u k v p = cb' u k v p) →
      ∃ r, CallCb fl (cb3 cb) (go% Walk) [.bytes json, .nil] u r ∧ CallCb fl (cb3 cb') (go% Walk) [.bytes json, .nil] u r) := by
  refine ⟨fun cb cb' h => ⟨_, text_IterateArray json path cb u, ?_⟩, fun cb cb' h => ⟨_, text_IterateKeyValue json path cb u, ?_⟩,
    fun cb cb' h => ⟨_, text_Walk fl json cb u, ?_⟩⟩
  · rw [C116_iterateArray hu h]
    exact text_IterateArray json path cb' u
  · rw [C116_iterateKeyValue hu h]
    exact text_IterateKeyValue json path cb' u
  · rw [C116_walk hu h]
    exact text_Walk fl json cb' u

/-! Cases, on texts with letters of two and three bytes. -/

example : Utf8 (str "{\"é\": \"日本\", \"ö\": [1, \"ñ\"]}") :=
  ⟨"{\"é\": \"日本\", \"ö\": [1, \"ñ\"]}".toList, by decide +kernel⟩

/-- `Delete` and `SetKey` of the text on it. -/
example (fl : FloatLib UInt64) :
    Call fl (go% Delete) [.bytes (str "{\"é\": \"日本\", \"ö\": [1, \"ñ\"]}")] [str "é"] (.ok [.bytes (str "{ \"ö\": [1, \"ñ\"]}"), .nil]) ∧
    Call fl (go% SetKey) [.bytes (str "{\"é\":\"日本\"}"), .bytes (str "日")] [str "é"] (.ok [.bytes (str "{\"日\":\"日本\"}"), .nil]) := by
  refine ⟨(text_Delete fl _ _).done ?_, (text_SetKey fl _ _ _).done ?_⟩ <;> decide +kernel

end Jin.Go
