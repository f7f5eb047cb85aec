import Verif.Props.Text
import Verif.Props.Rfc
import Verif.Props.Types
import Verif.Props.Miss
/-!
# Property C120: RFC 8259 texts stay RFC 8259 texts, for the text

C63 and C60 for the text of /repo (`Verif.Go.Source`).  `RText`, `RValue` are the grammar of the RFC.
-/

namespace Jin.Go
open Spec

theorem done_of_any {fl : FloatLib UInt64} {f : Id} {args : List Val} {path : List Bytes} {m : Mut} {t : Bytes} {e : Val}
    (h : Call fl f args path (mutVals m)) (h' : Call fl f args path (.ok [.bytes t, e])) : ∃ er, m = .done t er := by
  have e := h.unique h'
  rcases m with ⟨b, _ | er⟩ | _ <;> simp [mutVals] at e
  · exact ⟨_, by rw [e.1]⟩
  · exact ⟨_, by rw [e.1]⟩

section
variable (fl : FloatLib UInt64) (d : Doc) (hd : d.wf) (hs : d.root.strict)
include hd hs

/-- **C120** `Set` of a value of the RFC. -/
theorem C120_set (path : List Text) (w : Json) (v : Text) (hp : path ≠ []) (h : d.get? path = some w) (hv : RValue v) :
    ∃ t, Call fl (go% Set) [.bytes d.render, .bytes v] path (.ok [.bytes t, .nil]) ∧ RText t := by
  obtain ⟨t, h1, h2⟩ := C63_set d path w v hd hs hp h hv
  exact ⟨t, (text_Set fl _ path (some v)).done h1, h2⟩

/-- **C120** `Delete` of what is there. -/
theorem C120_delete (p : List Text) (q : Text) (w c : Json) (hw : d.get? p = some w) (hc : d.get? (p ++ [q]) = some c) :
    ∃ t, Call fl (go% Delete) [.bytes d.render] (p ++ [q]) (.ok [.bytes t, .nil]) ∧ RText t := by
  obtain ⟨t, h1, h2⟩ := C63_delete d p q w c hd hs hw hc
  exact ⟨t, (text_Delete fl _ _).done h1, h2⟩

/-- **C120** `Add` to an array. -/
theorem C120_add (p : List Text) (g : Text) (es : List (Elem Json)) (v : Text) (h : d.get? p = some (.arr g es)) (hv : RValue v) :
    ∃ t, Call fl (go% Add) [.bytes d.render, .bytes v] p (.ok [.bytes t, .nil]) ∧ RText t := by
  obtain ⟨t, h1, h2⟩ := C63_add d p g es v hd hs h hv
  exact ⟨t, (text_Add fl _ p (some v)).done h1, h2⟩

/-- **C120** Whatever text `AddKeyValue` returns, with an error or without. -/
theorem C120_addKeyValue (p : List Text) (g : Text) (ms : List (Member Json)) (k v : Text) (h : d.get? p = some (.obj g ms)) (hk : rchars k)
    (hv : RValue v) (t : Bytes) (e : Val) (ha : Call fl (go% AddKeyValue) [.bytes d.render, .bytes k, .bytes v] p (.ok [.bytes t, e])) : RText t := by
  obtain ⟨er, h1⟩ := done_of_any (text_AddKeyValue fl _ p k (some v)) ha
  exact C63_addKeyValue d p g ms k v hd hs h hk hv t er h1

/-- **C120** Whatever text `SetKey` of a key that is there returns, with an error or without. -/
theorem C120_setKey (p : List Text) (q new : Text) (g : Text) (ms : List (Member Json)) (h : d.get? p = some (.obj g ms))
    (hq : ∃ m ∈ ms, m.key = q) (hk : rchars new) (t : Bytes) (e : Val)
    (ha : Call fl (go% SetKey) [.bytes d.render, .bytes new] (p ++ [q]) (.ok [.bytes t, e])) : RText t := by
  obtain ⟨er, h1⟩ := done_of_any (text_SetKey fl _ _ new) ha
  exact C63_setKey d p q new g ms hd hs h hq hk t er h1

/-- **C120 (partial)** `Insert`; missing: what C63 misses (the last element with space before it). -/
theorem C120_insert_partial (p : List Text) (g : Text) (es : List (Elem Json)) (n : Nat) (v : Text) (h : d.get? p = some (.arr g es))
    (hn : n < es.length) (hb : (n : Int) ≤ 9223372036854775807) (hv : RValue v)
    (hok : n + 1 < es.length ∨ n = 0 ∨ ∃ e, es[n]? = some e ∧ e.l = []) :
    ∃ t, Call fl (go% Insert) [.bytes d.render, .int n, .bytes v] p (.ok [.bytes t, .nil]) ∧ RText t := by
  obtain ⟨t, h1, h2⟩ := C63_insert_partial d p g es n v hd hs h hn hb hv hok
  exact ⟨t, (text_Insert fl _ p n (some v)).done h1, h2⟩

/-- **C120 (partial)** `Store`; missing: what C63 misses (a key that the search finds outside the object). -/
theorem C120_store_partial (p : List Text) (g : Text) (ms : List (Member Json)) (k v : Text) (h : d.get? p = some (.obj g ms)) (hk : rchars k)
    (hv : RValue v) (hok : (∃ m ∈ ms, m.key = k) ∨ d.clear p k) :
    ∃ t, Call fl (go% Store) [.bytes d.render, .bytes k, .bytes v] p (.ok [.bytes t, .nil]) ∧ RText t := by
  obtain ⟨t, h1, h2⟩ := C63_store_partial d p g ms k v hd hs h hk hv hok
  exact ⟨t, (text_Store fl _ p k (some v)).done h1, h2⟩

/-- **C120 (partial)** `SetString` and `AddString` of the content of a string of the RFC that does not look like a container, nor
like a number that is none; missing: what C60 misses. -/
theorem C120_strings_partial (p : List Text) (w : Json) (s : Text) (h : d.get? p = some w) (hr : rchars s)
    (h1 : ¬ (s.head? = some 0x5B ∧ s.getLast? = some 0x5D)) (h2 : ¬ (s.head? = some 0x7B ∧ s.getLast? = some 0x7D))
    (hi : ∀ n, readInt s = some n → s.head? ≠ some 0x30 → rnumber s) (hf : (fl.parse s).isSome → rnumber s) :
    (p ≠ [] → ∃ t, Call fl (go% SetString) [.bytes d.render, .bytes s] p (.ok [.bytes t, .nil]) ∧ RText t) ∧
    (w.kind = .arr → ∃ t, Call fl (go% AddString) [.bytes d.render, .bytes s] p (.ok [.bytes t, .nil]) ∧ RText t) := by
  obtain ⟨h3, h4, -⟩ := C60_writers _ s (C60_content_partial (fun s => (fl.parse s).isSome) s hr h1 h2 hi hf) d p w hd hs h
  refine ⟨fun hp => ?_, fun hk => ?_⟩
  · obtain ⟨t, h5, h6⟩ := h3 hp
    exact ⟨t, (text_SetString fl _ p s).done h5, h6⟩
  · obtain ⟨t, h5, h6⟩ := h4 hk
    exact ⟨t, (text_AddString fl _ p s).done h5, h6⟩

end

/-- A text with two commas after each other is no text of the RFC. -/
theorem not_rtext : ¬ RText (str "[1,,7 2]") := by
  intro h
  obtain ⟨d, hd, -, e⟩ := (C62_covers _).1 h
  have h0 : d.get? [] = some d.root := rfl
  have ha := C38_isArray hd h0
  rw [e] at ha
  have hk : IsArray (str "[1,,7 2]") [] = .ok true := by decide +kernel
  rw [hk] at ha
  have hg : Get (str "[1,,7 2]") [str "1"] = .err .emptyArray := by decide +kernel
  cases hr : d.root with
  | lit t => rw [hr] at ha; simp [Json.kind] at ha
  | str t => rw [hr] at ha; simp [Json.kind] at ha
  | obj g ms => rw [hr] at ha; simp [Json.kind] at ha
  | arr g es =>
    rw [hr] at h0
    cases hc : d.get? [str "1"] with
    | some w =>
      have := C01_get_exact d [str "1"] w hd (by decide) hc
      rw [e, hg] at this
      cases this
    | none =>
      have hl : ¬ 1 < es.length := by
        intro hl
        have hi : readIndex (str "1") = some 1 := by decide +kernel
        simp [Doc.get?, hr, Json.get?, Json.child?, hi, hl] at hc
      have := (C04_index_errors d [] (str "1") [] g es hd h0).2 1 (by decide +kernel) (.inr (by omega))
      rw [e, List.nil_append, hg] at this
      cases this

/-- **C63 fails** `Insert` before the last element of `[1, 2]`: the text it returns is no text of the RFC. -/
theorem _root_.Jin.C63_fails : RText (str "[1, 2]") ∧ RValue (str "7") ∧ Insert (str "[1, 2]") 1 (str "7") [] = .done (str "[1,,7 2]") none ∧
    ¬ RText (str "[1,,7 2]") :=
  ⟨(C62_covers _).2 ⟨⟨[], .arr [] [⟨[], .lit (str "1"), []⟩, ⟨[32], .lit (str "2"), []⟩], []⟩, by decide +kernel, by decide +kernel, by decide +kernel⟩,
    .number (by decide +kernel), by decide +kernel, not_rtext⟩

/-- The full statement for `Insert`. -/
def C120_statement (fl : FloatLib UInt64) : Prop :=
  ∀ (d : Doc) (p : List Text) (g : Text) (es : List (Elem Json)) (n : Nat) (v : Text), d.wf → d.root.strict → d.get? p = some (.arr g es) →
    n < es.length → RValue v → ∃ t, Call fl (go% Insert) [.bytes d.render, .int n, .bytes v] p (.ok [.bytes t, .nil]) ∧ RText t

/-- **C120 fails** The same for the text: the full statement is false. -/
theorem C120_fails (fl : FloatLib UInt64) : ¬ C120_statement fl := by
  intro h
  obtain ⟨t, h1, h2⟩ := h ⟨[], .arr [] [⟨[], .lit (str "1"), []⟩, ⟨[32], .lit (str "2"), []⟩], []⟩ [] [] _ 1 (str "7") (by decide +kernel)
    (by decide +kernel) rfl (by decide) (.number (by decide +kernel))
  have e : Doc.render ⟨[], .arr [] [⟨[], .lit (str "1"), []⟩, ⟨[32], .lit (str "2"), []⟩], []⟩ = str "[1, 2]" := by decide +kernel
  rw [e] at h1
  have h3 := Call.unique h1 ((text_Insert fl _ [] 1 (some (str "7"))).done C63_fails.2.2.1)
  have h4 : t = str "[1,,7 2]" := by
    injection h3 with h3; injection h3 with h3; injection h3
  rw [h4] at h2
  exact not_rtext h2

/-- A case of the hypotheses: the sample document. -/
example (fl : FloatLib UInt64) :
    (∃ t, Call fl (go% Set) [.bytes Sample.doc.render, .bytes (str "true")] Sample.toStr (.ok [.bytes t, .nil]) ∧ RText t) ∧
    (∃ t, Call fl (go% Add) [.bytes Sample.doc.render, .bytes (str "[ ]")] Sample.toArr (.ok [.bytes t, .nil]) ∧ RText t) := by
  have h : RValue (str "[ ]") := by
    have := RValue.emptyArray (w := [0x20]) (by decide)
    have e : str "[ ]" = 0x5B :: ([0x20] ++ [0x5D]) := by decide +kernel
    rw [e]; exact this
  exact ⟨C120_set fl _ Sample.doc_wf Sample.strict _ _ _ (by decide) Sample.get_str (.name (by decide +kernel)),
    C120_add fl _ Sample.doc_wf Sample.strict _ _ _ _ Sample.get_arr h⟩

end Jin.Go
