import Verif.Props.TextRound
import Verif.Props.ListsFollow
import Verif.Go.Scheme
/-!
# Property C126 for the text: key lists and elements follow the mutations
-/

namespace Jin.Go
open Spec

variable (fl : FloatLib UInt64) (d : Doc) (p : List Text)

/-- `GetKeys` of the text gives the list `ks`; Go's empty list is `nil`. -/
def Keys (json : Bytes) (p : List Bytes) (ks : List Bytes) : Prop :=
  Call fl (go% GetKeys) [.bytes json] p (.ok [if ks = [] then .nil else .strs ks, .nil])

/-- `IterateArray` of the text, called with a function that collects, gives the list `xs`. -/
def Elements (json : Bytes) (p : List Bytes) (xs : List Bytes) : Prop :=
  CallCb fl (cb1 fun (u : List Bytes) v => .ret (u ++ [v]) true none) (go% IterateArray) ([.bytes json, .nil] ++ p.map .bytes) [] (.ok (xs, [.nil]))

theorem nilStrs_eq (ks : List Bytes) : nilStrs ks = if ks = [] then .nil else .strs ks := by cases ks <;> rfl

variable {fl d p}

theorem keys_intro {json : Bytes} {p ks : List Bytes} (h : GetKeys json p = .ok ks) : Keys fl json p ks := by
  rw [Keys, ← nilStrs_eq]
  exact (text_GetKeys fl json p).one h

theorem keys_inv {json : Bytes} {p ks : List Bytes} (h : Keys fl json p ks) : GetKeys json p = .ok ks := by
  rw [Keys, ← nilStrs_eq] at h
  have e := (text_GetKeys fl json p).unique h
  cases hg : GetKeys json p with
  | panic => rw [hg] at e; cases e
  | err er => rw [hg] at e; simp [oneVal] at e
  | ok l =>
    rw [hg] at e
    cases l <;> cases ks <;> simp [oneVal, nilStrs] at e ⊢
    exact e

theorem elements_intro {json : Bytes} {p xs : List Bytes} (h : listed json p = .done xs none) : Elements fl json p xs := by
  have := text_IterateArray (fl := fl) json p (fun (u : List Bytes) v => .ret (u ++ [v]) true none) []
  rw [show IterateArray json _ p [] = _ from h] at this
  exact this

theorem elements_inv {json : Bytes} {p xs : List Bytes} (h : Elements fl json p xs) : listed json p = .done xs none := by
  obtain ⟨N, h⟩ := h
  obtain ⟨M, h'⟩ := text_IterateArray (fl := fl) json p (fun (u : List Bytes) v => .ret (u ++ [v]) true none) []
  have e := (h' (max N M) (max N M) (Nat.le_max_right ..) (Nat.le_max_right ..)).symm.trans
    (h (max N M) (max N M) (Nat.le_max_left ..) (Nat.le_max_left ..))
  unfold listed
  rcases hr : IterateArray json (fun (u : List Bytes) v => .ret (u ++ [v]) true none) p [] with ⟨s, _ | er⟩ | _
  · rw [hr] at e
    simp [iterVal] at e
    rw [e]
  · rw [hr] at e
    simp [iterVal] at e
  · rw [hr] at e
    simp [iterVal] at e

variable (fl d p)

/-- **C126** The key list of an object of the text after `AddKeyValue`, `SetKey` and `Set` that succeed. -/
theorem C126_text_keys (w : Json) (ks : List Bytes) (hd : d.wf) (h : d.get? p = some w) (hk : Keys fl d.render p ks) :
    (∀ (k : Text) (v : Json) (t : Bytes), strOk k → v.wf →
      Call fl (go% AddKeyValue) [.bytes d.render, .bytes k, .bytes v.render] p (.ok [.bytes t, .nil]) → k ∉ ks ∧ Keys fl t p (ks ++ [k])) ∧
    (∀ (q new : Text) (c : Json) (t : Bytes), d.get? (p ++ [q]) = some c → strOk new →
      Call fl (go% SetKey) [.bytes d.render, .bytes new] (p ++ [q]) (.ok [.bytes t, .nil]) → new ∉ ks ∧ Keys fl t p (ks.replace q new)) ∧
    (∀ (q : Text) (qs : List Text) (c v : Json), d.get? (p ++ q :: qs) = some c → v.wf →
      ∃ t, Call fl (go% Set) [.bytes d.render, .bytes v.render] (p ++ q :: qs) (.ok [.bytes t, .nil]) ∧ Keys fl t p ks) := by
  have hk := keys_inv hk
  refine ⟨fun k v t hks hv hc => ?_, fun q new c t hq hns hc => ?_, fun q qs c v hq hv => ?_⟩
  · obtain ⟨a, b⟩ := C126_addKeyValue d p w v k ks t hd h hks hv hk (Call.done_inv (text_AddKeyValue fl _ p k (some v.render)) hc)
    exact ⟨a, keys_intro b⟩
  · obtain ⟨a, b⟩ := C126_setKey d p w c q new ks t hd h hq hns hk (Call.done_inv (text_SetKey fl _ _ new) hc)
    exact ⟨a, keys_intro b⟩
  · obtain ⟨t, a, b⟩ := C126_set d p w c v q qs ks hd h hq hv hk
    exact ⟨t, (text_Set fl _ _ (some v.render)).done a, keys_intro b⟩

/-- **C126, part**: the key list after `Delete`. -/
theorem C126_text_delete_partial (w c : Json) (q : Text) (ks : List Bytes) (hd : d.wf) (h : d.get? p = some w) (hq : d.get? (p ++ [q]) = some c)
    (hk : Keys fl d.render p ks) (h0 : p ≠ [] ∨ ks ≠ [q]) :
    q ∈ ks ∧ ∃ t, Call fl (go% Delete) [.bytes d.render] (p ++ [q]) (.ok [.bytes t, .nil]) ∧ Keys fl t p (ks.erase q) := by
  obtain ⟨a, t, b, e⟩ := C126_delete_partial d p w c q ks hd h hq (keys_inv hk) h0
  exact ⟨a, t, (text_Delete fl _ _).done b, keys_intro e⟩

/-- **C126, part**: the elements after `Add`, `Delete`, `Set` and `Insert` of the text. -/
theorem C126_text_elements_partial (w : Json) (xs : List Bytes) (hd : d.wf) (h : d.get? p = some w) (hk : w.kind = .arr) (hw : w.entries ≠ [])
    (hx : Elements fl d.render p xs) :
    (∀ v : Json, v.wf → ∃ t, Call fl (go% Add) [.bytes d.render, .bytes v.render] p (.ok [.bytes t, .nil]) ∧ Elements fl t p (xs ++ [v.content])) ∧
    (∀ (q : Text) (i : Nat), readIndex q = some i → i < xs.length → 1 < xs.length →
      ∃ t, Call fl (go% Delete) [.bytes d.render] (p ++ [q]) (.ok [.bytes t, .nil]) ∧ Elements fl t p (xs.eraseIdx i)) ∧
    (∀ (v : Json) (q : Text) (i : Nat), v.wf → readIndex q = some i → i < xs.length →
      ∃ t, Call fl (go% Set) [.bytes d.render, .bytes v.render] (p ++ [q]) (.ok [.bytes t, .nil]) ∧ Elements fl t p (xs.set i v.content)) ∧
    (∀ (v : Json) (n : Nat), v.wf → n < xs.length → (n : Int) ≤ 9223372036854775807 → n + 1 < xs.length ∨ n = 0 →
      ∃ t, Call fl (go% Insert) [.bytes d.render, .int n, .bytes v.render] p (.ok [.bytes t, .nil]) ∧
        Elements fl t p (xs.take n ++ v.content :: xs.drop n)) := by
  obtain ⟨h1, h2, h3, h4⟩ := C126_elements_partial d p w xs hd h hk hw (elements_inv hx)
  refine ⟨fun v hv => ?_, fun q i hq hi hl => ?_, fun v q i hv hq hi => ?_, fun v n hv hn hb ho => ?_⟩
  · obtain ⟨t, a, b⟩ := h1 v hv
    exact ⟨t, (text_Add fl _ p (some v.render)).done a, elements_intro b⟩
  · obtain ⟨t, a, b⟩ := h2 q i hq hi hl
    exact ⟨t, (text_Delete fl _ _).done a, elements_intro b⟩
  · obtain ⟨t, a, b⟩ := h3 v q i hv hq hi
    exact ⟨t, (text_Set fl _ _ (some v.render)).done a, elements_intro b⟩
  · obtain ⟨t, a, b⟩ := h4 v n hv hn hb ho
    exact ⟨t, (text_Insert fl _ p n (some v.render)).done a, elements_intro b⟩

/-- **C126 fails** for the text: after the only element of a nested array is deleted, `IterateArray` hands out an empty element. -/
theorem C126_text_fails : Elements fl (str "{\"a\":[1]}") [str "a"] [str "1"] ∧
    Call fl (go% Delete) [.bytes (str "{\"a\":[1]}")] [str "a", str "0"] (.ok [.bytes (str "{\"a\":[]}"), .nil]) ∧
    Elements fl (str "{\"a\":[]}") [str "a"] [[]] :=
  ⟨elements_intro C126_fails.2.2.1.1, (text_Delete fl _ _).done C126_fails.2.2.1.2.1, elements_intro C126_fails.2.2.1.2.2⟩

/-- A case of the hypotheses: the keys of the sample document, and its keys after the first `a` is deleted. -/
example : Keys fl Sample.doc.render [] [str "a", str "b\\\"]", str "a", str "o"] ∧
    ∃ t, Call fl (go% Delete) [.bytes Sample.doc.render] [str "a"] (.ok [.bytes t, .nil]) ∧ Keys fl t [] [str "b\\\"]", str "a", str "o"] := by
  have e : Keys fl Sample.doc.render [] [str "a", str "b\\\"]", str "a", str "o"] := keys_intro (by decide +kernel)
  obtain ⟨-, t, h1, h2⟩ := C126_text_delete_partial fl Sample.doc [] _ (.lit (str "1")) (str "a") _ Sample.doc_wf Sample.get_root (by decide +kernel) e
    (.inr (by decide +kernel))
  have he : [str "a", str "b\\\"]", str "a", str "o"].erase (str "a") = [str "b\\\"]", str "a", str "o"] := by decide +kernel
  exact ⟨e, t, h1, he ▸ h2⟩

end Jin.Go
