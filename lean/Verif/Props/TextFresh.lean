import Verif.Props.Fresh
import Verif.Props.TextSync
/-!
# Property C143 for the text of /repo
-/

namespace Jin.Go
open Spec

/-- What `Get` of the text gives for a container of the text that the parser at `c` holds is that container. -/
def CurrentText (fl : FloatLib UInt64) (h : NHeap) (c : Nat) (j : Bytes) (q : List Text) : Prop :=
  ∀ (d : Doc) (w : Json), j = d.render → d.wf → d.get? q = some w → w.isContainer = true →
    Call fl (go% Parser.Get) [.heap h, .ptr c, .bytes j] q (.ok [.heap h, .ptr c, .bytes j, .bytes w.render, .nil])

section
variable {fl : FloatLib UInt64} {h h' : NHeap} {p : ParserP} {q : List Text} {c : Nat} {j : Bytes}

theorem currentText_of {m : PResP} {M : PRes} {up : Option Nat} {t : PTree} (hp : p.core < h.length) (hs : Sound h p m) (hr : PRel h up t m M)
    (e : R.ok [.heap h', .ptr c, .bytes j, .nil] = presVals m) (hc : ∀ P', M = .done P' none → Current P' q) : CurrentText fl h' c j q := by
  cases m with
  | panic => cases e
  | done p' h1 er =>
    simp only [presVals, R.ok.injEq, List.cons.injEq, Val.heap.injEq, Val.ptr.injEq, Val.bytes.injEq] at e
    obtain ⟨rfl, rfl, rfl, he, -⟩ := e
    cases er with
    | some e => simp [errVal] at he
    | none =>
      cases M with
      | panic => exact hr.elim
      | done P' e' =>
        obtain ⟨rfl, t', hr', -⟩ := hr
        obtain ⟨h1, h2, h3⟩ := hs
        intro d w hj hd hg hw
        have := text_get (fl := fl) h1 (by rw [h3]; exact Nat.lt_of_lt_of_le hp h2) hr' q
        rw [hc P' rfl d w (by rw [← hr'.json]; exact hj) hd hg hw] at this
        exact this

theorem AddKeyValueNil_sound (hh : Closed h) (hp : p.core < h.length) (key : Bytes) (path : List Bytes) : Sound h p (p.AddKeyValueNil h key path) := by
  unfold ParserP.AddKeyValueNil
  split
  · exact same_sound hh
  split
  · trivial
  · exact same_sound hh
  split
  · split
    · trivial
    split
    · exact same_sound hh
    split
    · exact same_sound hh
    split
    · trivial
    split
    · trivial
    next he =>
    obtain ⟨a, b, c⟩ := newNodeP_closed hh he
    obtain ⟨a1, a2⟩ := attach_closed a c (Nat.lt_of_lt_of_le hp b)
    split
    · exact ⟨a1, by omega, rfl⟩
    · trivial
  · split
    · trivial
    · exact same_sound hh
    next hw =>
    have hc := walk_lt hh path hp hw
    split
    · trivial
    split
    · exact same_sound hh
    split
    · exact same_sound hh
    split
    · trivial
    split
    · trivial
    next he =>
    obtain ⟨a, b, c⟩ := newNodeP_closed hh he
    obtain ⟨a1, a2⟩ := attach_closed a c (Nat.lt_of_lt_of_le hc b)
    dsimp only
    split
    · trivial
    · exact ⟨a1, by omega, rfl⟩
    · exact finish_sound a1 (by omega)

end

section
variable (fl : FloatLib UInt64) {w : WorldP} (hw : Left fl w) {k : Nat} {p : ParserP} (hp : w.parsers[k]? = some p) {path q : List Text} (h0 : q ≠ []) (hq : q <+: path)
  {h' : NHeap} {c : Nat} {j : Bytes}
include hw hp h0 hq

/-- **C143 for the text** After `Set` of a parser that a program holds, if it reports no error, the containers around the value are current. -/
theorem C143_text_set {v : Text} (hn : q ≠ path)
    (hc : Call fl (go% Parser.Set) [.heap w.heap, .ptr p.core, .bytes p.json, .bytes v] path (.ok [.heap h', .ptr c, .bytes j, .nil])) :
    CurrentText fl h' c j q := by
  obtain ⟨hh, hl, P, up, t, hr⟩ := hw.rep hp
  exact currentText_of hl (Set_sound hh hl ..) (set_sim hr v path) (hc.unique (text_Parser_Set fl hh p hl v path)) fun _ h => C143_set h0 hq hn h

/-- **C143 for the text** The same of `SetKey`. -/
theorem C143_text_setKey {v : Text} (hn : q ≠ path)
    (hc : Call fl (go% Parser.SetKey) [.heap w.heap, .ptr p.core, .bytes p.json, .bytes v] path (.ok [.heap h', .ptr c, .bytes j, .nil])) :
    CurrentText fl h' c j q := by
  obtain ⟨hh, hl, P, up, t, hr⟩ := hw.rep hp
  exact currentText_of hl (SetKey_sound hh hl ..) (setKey_sim hr v path) (hc.unique (text_Parser_SetKey fl hh p hl v path)) fun _ h => C143_setKey h0 hq hn h

/-- **C143 for the text** The same of `Delete`. -/
theorem C143_text_delete (hn : q ≠ path)
    (hc : Call fl (go% Parser.Delete) [.heap w.heap, .ptr p.core, .bytes p.json] path (.ok [.heap h', .ptr c, .bytes j, .nil])) :
    CurrentText fl h' c j q := by
  obtain ⟨hh, hl, P, up, t, hr⟩ := hw.rep hp
  exact currentText_of hl (Delete_sound hh hl ..) (delete_sim hr path) (hc.unique (text_Parser_Delete fl hh p hl path)) fun _ h => C143_delete h0 hq hn h

/-- **C143 for the text** After `AddKeyValue`, the object too. -/
theorem C143_text_addKeyValue {key v : Text}
    (hc : Call fl (go% Parser.AddKeyValue) [.heap w.heap, .ptr p.core, .bytes p.json, .bytes key, .bytes v] path (.ok [.heap h', .ptr c, .bytes j, .nil])) :
    CurrentText fl h' c j q := by
  obtain ⟨hh, hl, P, up, t, hr⟩ := hw.rep hp
  exact currentText_of hl (AddKeyValue_sound hh hl ..) (addKeyValue_sim hr key v path) (hc.unique (text_Parser_AddKeyValue fl hh p hl key v path))
    fun _ h => C143_addKeyValue h0 hq h

/-- **C143 for the text** The same with nil for the value. -/
theorem C143_text_addKeyValueNil {key : Text}
    (hc : Call fl (go% Parser.AddKeyValue) [.heap w.heap, .ptr p.core, .bytes p.json, .bytes key, .nil] path (.ok [.heap h', .ptr c, .bytes j, .nil])) :
    CurrentText fl h' c j q := by
  obtain ⟨hh, hl, P, up, t, hr⟩ := hw.rep hp
  exact currentText_of hl (AddKeyValueNil_sound hh hl ..) (addKeyValueNil_sim hr key path) (hc.unique (text_Parser_AddKeyValueNil fl hh p hl key path))
    fun _ h => C143_addKeyValueNil h0 hq h

/-- **C143 for the text (partial)** After `Add`, the array too; for a container, all but the outermost one.  Missing: that one (`C143_text_fails`). -/
theorem C143_text_add_partial {v : Text} (hv : 2 ≤ q.length ∨ v.head? ≠ some 0x5B ∧ v.head? ≠ some 0x7B)
    (hc : Call fl (go% Parser.Add) [.heap w.heap, .ptr p.core, .bytes p.json, .bytes v] path (.ok [.heap h', .ptr c, .bytes j, .nil])) :
    CurrentText fl h' c j q := by
  obtain ⟨hh, hl, P, up, t, hr⟩ := hw.rep hp
  exact currentText_of hl (Add_sound hh hl ..) (add_sim hr v path) (hc.unique (text_Parser_Add fl hh p hl v path)) fun _ h => C143_add_partial h0 hq hv h

/-- **C143 for the text** After `Insert`, the array too. -/
theorem C143_text_insert {i : Int} {v : Text}
    (hc : Call fl (go% Parser.Insert) [.heap w.heap, .ptr p.core, .bytes p.json, .int i, .bytes v] path (.ok [.heap h', .ptr c, .bytes j, .nil])) :
    CurrentText fl h' c j q := by
  obtain ⟨hh, hl, P, up, t, hr⟩ := hw.rep hp
  exact currentText_of hl (Insert_sound hh hl ..) (insert_sim hr i v path) (hc.unique (text_Parser_Insert fl hh p hl i v path)) fun _ h => C143_insert h0 hq h

end

/-- **C143 does not hold of the text**: `Add` of `[1]` to an array leaves the object around it as it was. -/
theorem C143_text_fails (fl : FloatLib UInt64) : ∃ h c h',
    Call1 fl (go% Parse) [.heap [], .bytes (str "{\"a\":{\"b\":[]}}")] (.ok [.heap h, .ptr c, .bytes (str "{\"a\":{\"b\":[]}}"), .nil]) ∧
    Call fl (go% Parser.Add) [.heap h, .ptr c, .bytes (str "{\"a\":{\"b\":[]}}"), .bytes (str "[1]")] [str "a", str "b"]
      (.ok [.heap h', .ptr c, .bytes (str "{\"a\":{\"b\":[[1]]}}"), .nil]) ∧
    Call fl (go% Parser.Get) [.heap h', .ptr c, .bytes (str "{\"a\":{\"b\":[[1]]}}")] [str "a"]
      (.ok [.heap h', .ptr c, .bytes (str "{\"a\":{\"b\":[[1]]}}"), .bytes (str "{\"b\":[]}"), .nil]) := by
  have hj : session (str "{\"a\":{\"b\":[]}}") (fun P => .done P none) Parser.json = some (str "{\"a\":{\"b\":[]}}", none) := by decide +kernel
  obtain ⟨P, P', hP, e2, e3⟩ := session_some C143_fails
  obtain ⟨P3, P4, e4, e5, e6⟩ := session_some hj
  rw [hP] at e4
  cases e4
  cases e5
  simp only [Prod.mk.injEq] at e3
  obtain ⟨e3, e7, -⟩ := e3
  have hs := parse_sim (str "{\"a\":{\"b\":[]}}") []
  have ht := text_Parse fl (h := []) (by intro q r hr; simp at hr) (json := str "{\"a\":{\"b\":[]}}")
  cases hx : ParseP (str "{\"a\":{\"b\":[]}}") [] with
  | panic => rw [hx, hP] at hs; exact hs.elim
  | err e => rw [hx, hP] at hs; exact hs.elim
  | ok x =>
    obtain ⟨p, h⟩ := x
    rw [hx] at ht
    rw [hx, hP] at hs
    obtain ⟨⟨up, t, hr, -⟩, -, -⟩ := hs
    obtain ⟨t1, t2, t3, -⟩ := ht
    have hm := add_sim hr (str "[1]") [str "a", str "b"]
    have hc := text_Parser_Add fl t2 p t3 (str "[1]") [str "a", str "b"]
    have hso := Add_sound t2 t3 (str "[1]") [str "a", str "b"]
    rw [e2] at hm
    have hpj : p.json = str "{\"a\":{\"b\":[]}}" := hr.json.trans e6
    cases hy : p.Add h (str "[1]") [str "a", str "b"] with
    | panic => rw [hy] at hm; exact hm.elim
    | done p' h' e' =>
      rw [hy] at hm hc hso
      obtain ⟨rfl, t', hr', -⟩ := hm
      obtain ⟨s1, s2, s3⟩ := hso
      have hg := text_get (fl := fl) s1 (by rw [s3]; exact Nat.lt_of_lt_of_le t3 s2) hr' [str "a"]
      have hpj' : p'.json = str "{\"a\":{\"b\":[[1]]}}" := hr'.json.trans e3
      rw [e7] at hg
      rw [hpj] at t1 hc
      simp only [presVals, readVals, Out.map, hpj', s3, errVal] at hc hg
      exact ⟨h, p.core, h', t1, hc, hg⟩

/-- A program that leaves a parser, and a call that meets the conditions: `Set` in the object `a`. -/
example (fl : FloatLib UInt64) : ∃ w p h', Left fl w ∧ w.parsers[0]? = some p ∧
    Call fl (go% Parser.Set) [.heap w.heap, .ptr p.core, .bytes p.json, .bytes (str "2")] [str "a", str "b"]
      (.ok [.heap h', .ptr p.core, .bytes (str "{\"a\":{\"b\":2}}"), .nil]) := by
  have hw : session (str "{\"a\":{\"b\":1}}") (·.Set (str "2") [str "a", str "b"]) Parser.json = some (str "{\"a\":{\"b\":2}}", none) := by decide +kernel
  obtain ⟨P, P', hP, e2, e3⟩ := session_some hw
  obtain ⟨w, h⟩ := (C108_sessions fl [.base (.parse (str "{\"a\":{\"b\":1}}"))] (by simp) _).2 rfl
  obtain ⟨w', L, k1, k2, hL⟩ := t_run (fl := fl) WRel.empty (fun _ _ h => by simp at h) [.base (.parse (str "{\"a\":{\"b\":1}}"))] (by simp)
  obtain ⟨-, rfl⟩ := h.unique k1
  have e1 : (tVals fl [] [.base (.parse (str "{\"a\":{\"b\":1}}"))]).2 = [P] := by simp [tVals, tVal, valStep, hP, TAns.isPanic, PAns.isPanic]
  rw [e1] at hL
  rcases hL.slot 0 with ⟨-, -, h0⟩ | ⟨s, s1, s2, s3⟩
  · simp at h0
  have hs := hL.rep 0 s s1
  have hP : s.P = P := by simpa using s3.symm
  rw [hP] at hs
  have hlt : s.p.core < w.heap.length := by rw [hs.core]; exact hs.holds.here.lt _ (ptr_mem s.t)
  have hm := set_sim hs (str "2") [str "a", str "b"]
  have hc := text_Parser_Set fl k2 s.p hlt (str "2") [str "a", str "b"]
  have hso := Set_sound k2 hlt (str "2") [str "a", str "b"]
  rw [e2] at hm
  cases hy : s.p.Set w.heap (str "2") [str "a", str "b"] with
  | panic => rw [hy] at hm; exact hm.elim
  | done p' h' e' =>
    rw [hy] at hm hc hso
    obtain ⟨rfl, t', hr', -⟩ := hm
    simp only [presVals, hr'.json.trans e3, hso.2.2, errVal] at hc
    exact ⟨w, s.p, h', ⟨_, _, by simp, h⟩, s2, hc⟩

end Jin.Go
