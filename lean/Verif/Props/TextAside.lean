import Verif.Props.Aside
import Verif.Props.TextFresh
/-!
# Property C144 for the text of /repo
-/

namespace Jin.Go
open Spec

/-- `Get` of the text at `q` gives after the call, for the parser at `c` with the text `j`, the value and the error that it gave before. -/
def KeptText (fl : FloatLib UInt64) (h : NHeap) (p : ParserP) (h' : NHeap) (c : Nat) (j : Bytes) (q : List Text) : Prop :=
  ∀ v e : Val, Call fl (go% Parser.Get) [.heap h, .ptr p.core, .bytes p.json] q (.ok [.heap h, .ptr p.core, .bytes p.json, v, e]) →
    Call fl (go% Parser.Get) [.heap h', .ptr c, .bytes j] q (.ok [.heap h', .ptr c, .bytes j, v, e])

section
variable {fl : FloatLib UInt64} {h h' : NHeap} {p : ParserP} {q : List Text} {c : Nat} {j : Bytes} {er : Val}

theorem keptText_of {m : PResP} {P : Parser} {M : PRes} {up : Option Nat} {t : PTree} (hh : Closed h) (hp : p.core < h.length) (hr : Rep h p P up t) (hs : Sound h p m)
    (hm : PRel h up t m M) (e : R.ok [.heap h', .ptr c, .bytes j, er] = presVals m) (hc : ∀ P' e, M = .done P' e → P'.Get q = P.Get q) : KeptText fl h p h' c j q := by
  intro v ev hv
  have hv := hv.unique (text_get hh hp hr q)
  cases m with
  | panic => cases e
  | done p' h1 er =>
    simp only [presVals, R.ok.injEq, List.cons.injEq, Val.heap.injEq, Val.ptr.injEq, Val.bytes.injEq] at e
    obtain ⟨rfl, rfl, rfl, -, -⟩ := e
    cases M with
    | panic => exact hm.elim
    | done P' e' =>
      obtain ⟨-, t', hr', -⟩ := hm
      obtain ⟨h1, h2, h3⟩ := hs
      have hg := text_get (fl := fl) h1 (by rw [h3]; exact Nat.lt_of_lt_of_le hp h2) hr' q
      rw [hc P' e' rfl] at hg
      revert hv hg
      cases P.Get q with
      | panic => intro hv; cases hv
      | ok b => intro hv hg; simp only [readVals, Out.map, R.ok.injEq, List.cons.injEq, true_and, and_true] at hv; rw [hv.1, hv.2]; exact hg
      | err x => intro hv hg; simp only [readVals, Out.map, R.ok.injEq, List.cons.injEq, true_and, and_true] at hv; rw [hv.1, hv.2]; exact hg

theorem get_val {P : Parser} {up : Option Nat} {t : PTree} (hh : Closed h) (hp : p.core < h.length) (hr : Rep h p P up t) {u : Bytes}
    (hv : Call fl (go% Parser.Get) [.heap h, .ptr p.core, .bytes p.json] q (.ok [.heap h, .ptr p.core, .bytes p.json, .bytes u, .nil])) : P.Get q = .ok u := by
  have hv := hv.unique (text_get hh hp hr q)
  revert hv
  cases P.Get q with
  | panic => intro hv; cases hv
  | ok b => intro hv; simp only [readVals, Out.map, R.ok.injEq, List.cons.injEq, Val.bytes.injEq, true_and, and_true] at hv; rw [hv]
  | err x => intro hv; simp [readVals, Out.map] at hv

end

section
variable (fl : FloatLib UInt64) {w : WorldP} (hw : Left fl w) {k : Nat} {p : ParserP} (hp : w.parsers[k]? = some p) {path q : List Text}
  {h' : NHeap} {c : Nat} {j : Bytes} {er : Val}
include hw hp

/-- **C144 for the text** `Set` of a parser that a program holds, whatever it reports: `Get` elsewhere gives what it gave before. -/
theorem C144_text_set (hq : Aside path q) {v : Text} 
    (hc : Call fl (go% Parser.Set) [.heap w.heap, .ptr p.core, .bytes p.json, .bytes v] path (.ok [.heap h', .ptr c, .bytes j, er])) :
    KeptText fl w.heap p h' c j q := by
  obtain ⟨hh, hl, P, up, t, hr⟩ := hw.rep hp
  exact keptText_of hh hl hr (Set_sound hh hl ..) (set_sim hr v path) (hc.unique (text_Parser_Set fl hh p hl v path))
    fun _ _ h => C144_set hq h

/-- **C144 for the text** `SetKey`, on paths that do not lead through the new key either. -/
theorem C144_text_setKey (hq : Aside path q) {v : Text} (hn : ¬ path.dropLast ++ [v] <+: q) 
    (hc : Call fl (go% Parser.SetKey) [.heap w.heap, .ptr p.core, .bytes p.json, .bytes v] path (.ok [.heap h', .ptr c, .bytes j, er])) :
    KeptText fl w.heap p h' c j q := by
  obtain ⟨hh, hl, P, up, t, hr⟩ := hw.rep hp
  exact keptText_of hh hl hr (SetKey_sound hh hl ..) (setKey_sim hr v path) (hc.unique (text_Parser_SetKey fl hh p hl v path))
    fun _ _ h => C144_setKey hq hn h

/-- **C144 for the text** `SetKey` and a value that was there, also under the new key. -/
theorem C144_text_setKey_found (hq : Aside path q) {v u : Text}
    (hg : Call fl (go% Parser.Get) [.heap w.heap, .ptr p.core, .bytes p.json] q (.ok [.heap w.heap, .ptr p.core, .bytes p.json, .bytes u, .nil]))
    (hc : Call fl (go% Parser.SetKey) [.heap w.heap, .ptr p.core, .bytes p.json, .bytes v] path (.ok [.heap h', .ptr c, .bytes j, er])) :
    Call fl (go% Parser.Get) [.heap h', .ptr c, .bytes j] q (.ok [.heap h', .ptr c, .bytes j, .bytes u, .nil]) := by
  obtain ⟨hh, hl, P, up, t, hr⟩ := hw.rep hp
  have hu := get_val hh hl hr hg
  exact keptText_of hh hl hr (SetKey_sound hh hl ..) (setKey_sim hr v path) (hc.unique (text_Parser_SetKey fl hh p hl v path))
    (fun _ _ h => (C144_setKey_found hq hu h).trans hu.symm) _ _ hg

/-- **C144 for the text** `Delete`. -/
theorem C144_text_delete (hq : Aside path q) 
    (hc : Call fl (go% Parser.Delete) [.heap w.heap, .ptr p.core, .bytes p.json] path (.ok [.heap h', .ptr c, .bytes j, er])) :
    KeptText fl w.heap p h' c j q := by
  obtain ⟨hh, hl, P, up, t, hr⟩ := hw.rep hp
  exact keptText_of hh hl hr (Delete_sound hh hl ..) (delete_sim hr path) (hc.unique (text_Parser_Delete fl hh p hl path))
    fun _ _ h => C144_delete hq h

/-- **C144 for the text** `AddKeyValue`. -/
theorem C144_text_addKeyValue (hq : Aside path q) {key v : Text} 
    (hc : Call fl (go% Parser.AddKeyValue) [.heap w.heap, .ptr p.core, .bytes p.json, .bytes key, .bytes v] path (.ok [.heap h', .ptr c, .bytes j, er])) :
    KeptText fl w.heap p h' c j q := by
  obtain ⟨hh, hl, P, up, t, hr⟩ := hw.rep hp
  exact keptText_of hh hl hr (AddKeyValue_sound hh hl ..) (addKeyValue_sim hr key v path) (hc.unique (text_Parser_AddKeyValue fl hh p hl key v path))
    fun _ _ h => C144_addKeyValue hq h

/-- **C144 for the text** `AddKeyValue` with nil for the value. -/
theorem C144_text_addKeyValueNil (hq : Aside path q) {key : Text}
    (hc : Call fl (go% Parser.AddKeyValue) [.heap w.heap, .ptr p.core, .bytes p.json, .bytes key, .nil] path (.ok [.heap h', .ptr c, .bytes j, er])) :
    KeptText fl w.heap p h' c j q := by
  obtain ⟨hh, hl, P, up, t, hr⟩ := hw.rep hp
  exact keptText_of hh hl hr (AddKeyValueNil_sound hh hl ..) (addKeyValueNil_sim hr key path) (hc.unique (text_Parser_AddKeyValueNil fl hh p hl key path))
    fun _ _ h => C144_addKeyValueNil hq h

/-- **C144 for the text** `Add`. -/
theorem C144_text_add (hq : Aside path q) {v : Text} 
    (hc : Call fl (go% Parser.Add) [.heap w.heap, .ptr p.core, .bytes p.json, .bytes v] path (.ok [.heap h', .ptr c, .bytes j, er])) :
    KeptText fl w.heap p h' c j q := by
  obtain ⟨hh, hl, P, up, t, hr⟩ := hw.rep hp
  exact keptText_of hh hl hr (Add_sound hh hl ..) (add_sim hr v path) (hc.unique (text_Parser_Add fl hh p hl v path))
    fun _ _ h => C144_add hq h

/-- **C144 for the text** `Insert`. -/
theorem C144_text_insert (hq : Aside path q) {i : Int} {v : Text} 
    (hc : Call fl (go% Parser.Insert) [.heap w.heap, .ptr p.core, .bytes p.json, .int i, .bytes v] path (.ok [.heap h', .ptr c, .bytes j, er])) :
    KeptText fl w.heap p h' c j q := by
  obtain ⟨hh, hl, P, up, t, hr⟩ := hw.rep hp
  exact keptText_of hh hl hr (Insert_sound hh hl ..) (insert_sim hr i v path) (hc.unique (text_Parser_Insert fl hh p hl i v path))
    fun _ _ h => C144_insert hq h

/-- **C144 for the text** `AddKeyValue` and a value that was there below its place (the root included). -/
theorem C144_text_addKeyValue_below (hq : ¬ q <+: path) {key v : Text} {u : Text}
    (hg : Call fl (go% Parser.Get) [.heap w.heap, .ptr p.core, .bytes p.json] q (.ok [.heap w.heap, .ptr p.core, .bytes p.json, .bytes u, .nil]))
    (hc : Call fl (go% Parser.AddKeyValue) [.heap w.heap, .ptr p.core, .bytes p.json, .bytes key, .bytes v] path (.ok [.heap h', .ptr c, .bytes j, er])) :
    Call fl (go% Parser.Get) [.heap h', .ptr c, .bytes j] q (.ok [.heap h', .ptr c, .bytes j, .bytes u, .nil]) := by
  obtain ⟨hh, hl, P, up, t, hr⟩ := hw.rep hp
  have hu := get_val hh hl hr hg
  exact keptText_of hh hl hr (AddKeyValue_sound hh hl ..) (addKeyValue_sim hr key v path) (hc.unique (text_Parser_AddKeyValue fl hh p hl key v path))
    (fun _ _ h => (C144_addKeyValue_below hq hu h).trans hu.symm) _ _ hg

/-- **C144 for the text** The same with nil for the value. -/
theorem C144_text_addKeyValueNil_below (hq : ¬ q <+: path) {key u : Text}
    (hg : Call fl (go% Parser.Get) [.heap w.heap, .ptr p.core, .bytes p.json] q (.ok [.heap w.heap, .ptr p.core, .bytes p.json, .bytes u, .nil]))
    (hc : Call fl (go% Parser.AddKeyValue) [.heap w.heap, .ptr p.core, .bytes p.json, .bytes key, .nil] path (.ok [.heap h', .ptr c, .bytes j, er])) :
    Call fl (go% Parser.Get) [.heap h', .ptr c, .bytes j] q (.ok [.heap h', .ptr c, .bytes j, .bytes u, .nil]) := by
  obtain ⟨hh, hl, P, up, t, hr⟩ := hw.rep hp
  have hu := get_val hh hl hr hg
  exact keptText_of hh hl hr (AddKeyValueNil_sound hh hl ..) (addKeyValueNil_sim hr key path) (hc.unique (text_Parser_AddKeyValueNil fl hh p hl key path))
    (fun _ _ h => (C144_addKeyValueNil_below hq hu h).trans hu.symm) _ _ hg

/-- **C144 for the text** `Add` and a value that was there below its place (the root included). -/
theorem C144_text_add_below (hq : ¬ q <+: path) {v : Text} {u : Text}
    (hg : Call fl (go% Parser.Get) [.heap w.heap, .ptr p.core, .bytes p.json] q (.ok [.heap w.heap, .ptr p.core, .bytes p.json, .bytes u, .nil]))
    (hc : Call fl (go% Parser.Add) [.heap w.heap, .ptr p.core, .bytes p.json, .bytes v] path (.ok [.heap h', .ptr c, .bytes j, er])) :
    Call fl (go% Parser.Get) [.heap h', .ptr c, .bytes j] q (.ok [.heap h', .ptr c, .bytes j, .bytes u, .nil]) := by
  obtain ⟨hh, hl, P, up, t, hr⟩ := hw.rep hp
  have hu := get_val hh hl hr hg
  exact keptText_of hh hl hr (Add_sound hh hl ..) (add_sim hr v path) (hc.unique (text_Parser_Add fl hh p hl v path))
    (fun _ _ h => (C144_add_below hq hu h).trans hu.symm) _ _ hg

/-- What C143 misses for the text, exactly: after `Add` of an object or array, `Get` gives for the outermost container on the way what it gave before. -/
theorem C143_text_add_outer {a v : Text} (hv : 2 ≤ v.length) (hb : v.head? = some 0x5B ∨ v.head? = some 0x7B)
    (hc : Call fl (go% Parser.Add) [.heap w.heap, .ptr p.core, .bytes p.json, .bytes v] (a :: path) (.ok [.heap h', .ptr c, .bytes j, er])) :
    KeptText fl w.heap p h' c j [a] := by
  obtain ⟨hh, hl, P, up, t, hr⟩ := hw.rep hp
  exact keptText_of hh hl hr (Add_sound hh hl ..) (add_sim hr v (a :: path)) (hc.unique (text_Parser_Add fl hh p hl v (a :: path)))
    fun _ _ h => C143_add_outer hv hb h

end

/-- A program that leaves a parser, a call of it, and a place elsewhere. -/
example (fl : FloatLib UInt64) : Aside [str "a", str "b"] [str "c"] ∧ ∃ w p h', Left fl w ∧ w.parsers[0]? = some p ∧
    Call fl (go% Parser.Set) [.heap w.heap, .ptr p.core, .bytes p.json, .bytes (str "2")] [str "a", str "b"]
      (.ok [.heap h', .ptr p.core, .bytes (str "{\"a\":{\"b\":2},\"c\":[2]}"), .nil]) ∧
    Call fl (go% Parser.Get) [.heap w.heap, .ptr p.core, .bytes p.json] [str "c"] (.ok [.heap w.heap, .ptr p.core, .bytes p.json, .bytes (str "[2]"), .nil]) := by
  refine ⟨by constructor <;> decide +kernel, ?_⟩
  have hj : session (str "{\"a\":{\"b\":1},\"c\":[2]}") (fun P => .done P none) (·.Get [str "c"]) = some (.ok (str "[2]"), none) := by decide +kernel
  have hw : session (str "{\"a\":{\"b\":1},\"c\":[2]}") (·.Set (str "2") [str "a", str "b"]) Parser.json = some (str "{\"a\":{\"b\":2},\"c\":[2]}", none) := by decide +kernel
  obtain ⟨P, P', hP, e2, e3⟩ := session_some hw
  obtain ⟨P3, P4, e4, e5, e6⟩ := session_some hj
  rw [hP] at e4
  cases e4
  cases e5
  obtain ⟨w, h⟩ := (C108_sessions fl [.base (.parse (str "{\"a\":{\"b\":1},\"c\":[2]}"))] (by simp) _).2 rfl
  obtain ⟨w', L, k1, k2, hL⟩ := t_run (fl := fl) WRel.empty (fun _ _ h => by simp at h) [.base (.parse (str "{\"a\":{\"b\":1},\"c\":[2]}"))] (by simp)
  obtain ⟨-, rfl⟩ := h.unique k1
  have e1 : (tVals fl [] [.base (.parse (str "{\"a\":{\"b\":1},\"c\":[2]}"))]).2 = [P] := by simp [tVals, tVal, valStep, hP, TAns.isPanic, PAns.isPanic]
  rw [e1] at hL
  rcases hL.slot 0 with ⟨-, -, h0⟩ | ⟨s, s1, s2, s3⟩
  · simp at h0
  have hs := hL.rep 0 s s1
  have hP : s.P = P := by simpa using s3.symm
  rw [hP] at hs
  have hlt : s.p.core < w.heap.length := by rw [hs.core]; exact hs.holds.here.lt _ (ptr_mem s.t)
  have hm := set_sim hs (str "2") [str "a", str "b"]
  have hc := text_Parser_Set fl k2 s.p hlt (str "2") [str "a", str "b"]
  have hso := Set_sound k2 hlt (str "2") [str "a", str "b"]
  have hg := text_get (fl := fl) k2 hlt hs [str "c"]
  rw [e6] at hg
  rw [e2] at hm
  cases hy : s.p.Set w.heap (str "2") [str "a", str "b"] with
  | panic => rw [hy] at hm; exact hm.elim
  | done p' h' e' =>
    rw [hy] at hm hc hso
    obtain ⟨rfl, t', hr', -⟩ := hm
    simp only [presVals, hr'.json.trans e3, hso.2.2, errVal] at hc
    exact ⟨w, s.p, h', ⟨_, _, by simp, h⟩, s2, hc, hg⟩

end Jin.Go
