import Verif.Props.Text
import Verif.Props.FormatMut
/-!
# Property C125 for the text: mutators do not depend on formatting
-/

namespace Jin.Go
open Spec

/-- Two texts that `Flatten` makes the same. -/
def SameTokens (fl : FloatLib UInt64) (s t : Bytes) : Prop := ∃ r, Call1 fl (go% Flatten) [.bytes s] r ∧ Call1 fl (go% Flatten) [.bytes t] r

theorem sameTokens {fl : FloatLib UInt64} {s t : Bytes} (h : Flatten s = Flatten t) : SameTokens fl s t :=
  ⟨_, text_Flatten fl s, h ▸ text_Flatten fl t⟩

variable (fl : FloatLib UInt64) (d₁ d₂ : Doc) (p : List Text)

/-- **C125** `Set`, `Delete` and `Add` of the text. -/
theorem C125_text (w v₁ v₂ : Json) (h₁ : d₁.wf) (h₂ : d₂.wf) (hs : d₁.root.strip = d₂.root.strip) (h : d₁.get? p = some w)
    (hv₁ : v₁.wf) (hv₂ : v₂.wf) (hv : v₁.strip = v₂.strip) :
    (p ≠ [] → ∃ t₁ t₂, Call fl (go% Set) [.bytes d₁.render, .bytes v₁.render] p (.ok [.bytes t₁, .nil]) ∧
      Call fl (go% Set) [.bytes d₂.render, .bytes v₂.render] p (.ok [.bytes t₂, .nil]) ∧ SameTokens fl t₁ t₂) ∧
    (∀ q c, d₁.get? (p ++ [q]) = some c → ∃ t₁ t₂, Call fl (go% Delete) [.bytes d₁.render] (p ++ [q]) (.ok [.bytes t₁, .nil]) ∧
      Call fl (go% Delete) [.bytes d₂.render] (p ++ [q]) (.ok [.bytes t₂, .nil]) ∧ SameTokens fl t₁ t₂) ∧
    (w.kind = .arr → ∃ t₁ t₂, Call fl (go% Add) [.bytes d₁.render, .bytes v₁.render] p (.ok [.bytes t₁, .nil]) ∧
      Call fl (go% Add) [.bytes d₂.render, .bytes v₂.render] p (.ok [.bytes t₂, .nil]) ∧ SameTokens fl t₁ t₂) := by
  refine ⟨fun hp => ?_, fun q c hc => ?_, fun hk => ?_⟩
  · obtain ⟨t₁, t₂, a, b, e⟩ := C125_set d₁ d₂ p w v₁ v₂ h₁ h₂ hs hp h hv₁ hv₂ hv
    exact ⟨t₁, t₂, (text_Set fl _ p (some v₁.render)).done a, (text_Set fl _ p (some v₂.render)).done b, sameTokens e⟩
  · obtain ⟨t₁, t₂, a, b, e⟩ := C125_delete d₁ d₂ p q c h₁ h₂ hs hc
    exact ⟨t₁, t₂, (text_Delete fl _ _).done a, (text_Delete fl _ _).done b, sameTokens e⟩
  · cases w with
    | arr g es =>
      obtain ⟨t₁, t₂, a, b, e⟩ := C125_add d₁ d₂ p g es v₁ v₂ h₁ h₂ hs h hv₁ hv₂ hv
      exact ⟨t₁, t₂, (text_Add fl _ p (some v₁.render)).done a, (text_Add fl _ p (some v₂.render)).done b, sameTokens e⟩
    | _ => cases hk

/-- **C125, part**: `Insert`, `AddKeyValue` and `SetKey` of the text. -/
theorem C125_text_partial (v₁ v₂ : Json) (h₁ : d₁.wf) (h₂ : d₂.wf) (hs : d₁.root.strip = d₂.root.strip)
    (hv₁ : v₁.wf) (hv₂ : v₂.wf) (hv : v₁.strip = v₂.strip) :
    (∀ g es (n : Nat), d₁.get? p = some (.arr g es) → n < es.length → (n : Int) ≤ 9223372036854775807 → n + 1 < es.length ∨ n = 0 →
      ∃ t₁ t₂, Call fl (go% Insert) [.bytes d₁.render, .int n, .bytes v₁.render] p (.ok [.bytes t₁, .nil]) ∧
        Call fl (go% Insert) [.bytes d₂.render, .int n, .bytes v₂.render] p (.ok [.bytes t₂, .nil]) ∧ SameTokens fl t₁ t₂) ∧
    (∀ g ms k, d₁.get? p = some (.obj g ms) → (∀ m ∈ ms, m.key ≠ k) → strOk k → ms = [] ∨ d₁.clear p k ∧ d₂.clear p k →
      ∃ t₁ t₂, Call fl (go% AddKeyValue) [.bytes d₁.render, .bytes k, .bytes v₁.render] p (.ok [.bytes t₁, .nil]) ∧
        Call fl (go% AddKeyValue) [.bytes d₂.render, .bytes k, .bytes v₂.render] p (.ok [.bytes t₂, .nil]) ∧ SameTokens fl t₁ t₂) ∧
    (∀ g ms n q new, d₁.get? p = some (.obj g ms) → memberIdx ms q = some n → new ≠ [] → (∀ m ∈ ms, m.key ≠ new) → strOk new →
      d₁.clear p new ∧ d₂.clear p new →
      ∃ t₁ t₂, Call fl (go% SetKey) [.bytes d₁.render, .bytes new] (p ++ [q]) (.ok [.bytes t₁, .nil]) ∧
        Call fl (go% SetKey) [.bytes d₂.render, .bytes new] (p ++ [q]) (.ok [.bytes t₂, .nil]) ∧ SameTokens fl t₁ t₂) := by
  refine ⟨fun g es n h hn hb hok => ?_, fun g ms k h hk hks hok => ?_, fun g ms n q new h hq hne hnew hns hok => ?_⟩
  · obtain ⟨t₁, t₂, a, b, e⟩ := C125_insert_partial d₁ d₂ p g es n v₁ v₂ h₁ h₂ hs h hn hb hok hv₁ hv₂ hv
    exact ⟨t₁, t₂, (text_Insert fl _ p n (some v₁.render)).done a, (text_Insert fl _ p n (some v₂.render)).done b, sameTokens e⟩
  · obtain ⟨t₁, t₂, a, b, e⟩ := C125_addKeyValue_partial d₁ d₂ p g ms k v₁ v₂ h₁ h₂ hs h hk hks hok hv₁ hv₂ hv
    exact ⟨t₁, t₂, (text_AddKeyValue fl _ p k (some v₁.render)).done a, (text_AddKeyValue fl _ p k (some v₂.render)).done b, sameTokens e⟩
  · obtain ⟨t₁, t₂, a, b, e⟩ := C125_setKey_partial d₁ d₂ p g ms n q new h₁ h₂ hs h hq hne hnew hns hok
    exact ⟨t₁, t₂, (text_SetKey fl _ _ new).done a, (text_SetKey fl _ _ new).done b, sameTokens e⟩

/-- **C125 fails** for the text: `Insert` before the last element looks at the white space in front of it. -/
theorem C125_text_fails : Call fl (go% Insert) [.bytes (str "[1,2]"), .int 1, .bytes (str "7")] [] (.ok [.bytes (str "[1,7,2]"), .nil]) ∧
    Call fl (go% Insert) [.bytes (str "[1, 2]"), .int 1, .bytes (str "7")] [] (.ok [.bytes (str "[1,,7 2]"), .nil]) :=
  ⟨(text_Insert fl _ _ 1 (some (str "7"))).done C125_fails.1.1, (text_Insert fl _ _ 1 (some (str "7"))).done C125_fails.1.2⟩

/-- A case of the hypotheses: the sample document and its flattened form. -/
example : ∃ t₁ t₂, Call fl (go% Delete) [.bytes Sample.doc.render] (Sample.toArr ++ [str "1"]) (.ok [.bytes t₁, .nil]) ∧
    Call fl (go% Delete) [.bytes (Flatten Sample.doc.render)] (Sample.toArr ++ [str "1"]) (.ok [.bytes t₂, .nil]) ∧ SameTokens fl t₁ t₂ := by
  rw [C40_flatten _ Sample.doc_wf]
  obtain ⟨c, hc⟩ : ∃ c, Sample.doc.get? (Sample.toArr ++ [str "1"]) = some c := by
    cases e : Sample.doc.get? (Sample.toArr ++ [str "1"]) with
    | some c => exact ⟨c, rfl⟩
    | none => exact absurd e (by decide +kernel)
  exact (C125_text fl Sample.doc _ Sample.toArr _ (.lit (str "7")) (.lit (str "7")) Sample.doc_wf (C40_flatten_wf _ Sample.doc_wf) (strip_strip _).symm
    Sample.get_arr (by decide +kernel) (by decide +kernel) rfl).2.1 _ c hc

end Jin.Go
