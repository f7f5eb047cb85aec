import Verif.Props.Deep
import Verif.Props.TextAside
import Verif.Props.TextParserMore
/-!
# Property C145 for the text of /repo
-/

namespace Jin.Go
open Spec

/-- The parser at `c` shows `u` at `q`, and inside it, behind one more `0`, what a parser of `x` shows; nothing else. -/
def DeepText (fl : FloatLib UInt64) (h : NHeap) (c : Nat) (j : Bytes) (x : Json) (u : Bytes) (q : List Text) : Prop :=
  ∃ h2 c2, Call1 fl (go% Parse) [.heap h, .bytes x.render] (.ok [.heap h2, .ptr c2, .bytes x.render, .nil]) ∧
    Call fl (go% Parser.Get) [.heap h, .ptr c, .bytes j] q (.ok [.heap h, .ptr c, .bytes j, .bytes u, .nil]) ∧
    ∀ r, (∀ v e : Val, Call fl (go% Parser.Get) [.heap h2, .ptr c2, .bytes x.render] r (.ok [.heap h2, .ptr c2, .bytes x.render, v, e]) →
        Call fl (go% Parser.Get) [.heap h, .ptr c, .bytes j] (q ++ itoa 0 :: r) (.ok [.heap h, .ptr c, .bytes j, v, e])) ∧
      ∀ b, b ≠ itoa 0 → Call fl (go% Parser.Get) [.heap h, .ptr c, .bytes j] (q ++ b :: r) (.ok [.heap h, .ptr c, .bytes j, .nil, .err (.keyNotFound b)])

theorem deepText_of {fl : FloatLib UInt64} {h h' : NHeap} {p : ParserP} {q : List Text} {c : Nat} {j u : Bytes} {x : Json} {m : PResP} {M : PRes} {up : Option Nat} {t : PTree}
    (hp : p.core < h.length) (hs : Sound h p m) (hm : PRel h up t m M) (e : R.ok [.heap h', .ptr c, .bytes j, .nil] = presVals m)
    (hc : ∀ P', M = .done P' none → ∃ p0, Parse x.render = .ok p0 ∧ P'.Get q = .ok u ∧
      ∀ r, P'.Get (q ++ itoa 0 :: r) = p0.Get r ∧ ∀ b, b ≠ itoa 0 → P'.Get (q ++ b :: r) = .err (.keyNotFound b)) : DeepText fl h' c j x u q := by
  cases m with
  | panic => cases e
  | done p' h1 er =>
    simp only [presVals, R.ok.injEq, List.cons.injEq, Val.heap.injEq, Val.ptr.injEq, Val.bytes.injEq] at e
    obtain ⟨rfl, rfl, rfl, he, -⟩ := e
    cases er with
    | some e => simp [errVal] at he
    | none =>
      cases M with
      | panic => exact hm.elim
      | done P' e' =>
        obtain ⟨rfl, t', hr', -⟩ := hm
        obtain ⟨s1, s2, s3⟩ := hs
        have hlt : p'.core < h'.length := by rw [s3]; exact Nat.lt_of_lt_of_le hp s2
        have hg := fun q => text_get (fl := fl) s1 hlt hr' q
        obtain ⟨P0, h0, g1, g2⟩ := hc P' rfl
        have hsim := parse_sim x.render h'
        have ht := text_Parse fl s1 (json := x.render)
        rw [h0] at hsim
        cases hx : ParseP x.render h' with
        | panic => rw [hx] at hsim; exact hsim.elim
        | err e => rw [hx] at hsim; exact hsim.elim
        | ok y =>
          obtain ⟨p2, h2⟩ := y
          rw [hx] at ht hsim
          obtain ⟨⟨up2, t2, hr2, -⟩, -, -⟩ := hsim
          obtain ⟨t1, t2, t3, -⟩ := ht
          have hj : p2.json = x.render := by
            have := get_sim hr2 []
            rw [hr2.json]
            have h0' := h0
            unfold Parse at h0'
            cases hpc : pCore x.render (.mk [] [] []) with
            | panic => rw [hpc] at h0'; cases h0'
            | err e => rw [hpc] at h0'; cases h0'
            | ok n =>
              rw [hpc] at h0'
              change (match n.down with | [] => Out.err (.badJSON 0) | c :: _ => Out.ok (Parser.mk c x.render)) = _ at h0'
              split at h0' <;> cases h0'
              rfl
          rw [hj] at t1
          refine ⟨h2, p2.core, t1, ?_, fun r => ⟨fun v e hv => ?_, fun b hb => ?_⟩⟩
          · have := hg q
            rw [g1] at this
            exact this
          · have hv := hv.unique (hj ▸ text_get (fl := fl) t2 t3 hr2 r)
            have hq := hg (q ++ itoa 0 :: r)
            rw [(g2 r).1] at hq
            revert hv hq
            cases P0.Get r with
            | panic => intro hv; cases hv
            | ok b => intro hv hg; simp only [readVals, Out.map, R.ok.injEq, List.cons.injEq, true_and, and_true] at hv; rw [hv.2.1, hv.2.2]; exact hg
            | err x => intro hv hg; simp only [readVals, Out.map, R.ok.injEq, List.cons.injEq, true_and, and_true] at hv; rw [hv.2.1, hv.2.2]; exact hg
          · have := hg (q ++ b :: r)
            rw [(g2 r).2 b hb] at this
            exact this

theorem get_err {h h' : NHeap} {p p' : ParserP} {o : Out Bytes} {e : Err} (h1 : R.ok [.heap h', .ptr p'.core, .bytes p'.json, .nil, .err e] = readVals h p .nil (o.map .bytes)) : o = .err e := by
  revert h1
  cases o with
  | panic => intro h; cases h
  | ok b => intro h; simp [readVals, Out.map] at h
  | err y => intro h; simp only [readVals, Out.map, R.ok.injEq, List.cons.injEq, Val.err.injEq, and_true] at h; rw [h.2.2.2.2]

section
variable (fl : FloatLib UInt64) {w : WorldP} (hw : Left fl w) {k : Nat} {p : ParserP} (hp : w.parsers[k]? = some p) {path : List Text} {x : Json} (hx : x.wf) (hx' : x.isContainer)
  {h' : NHeap} {c : Nat} {j : Bytes}
include hw hp hx hx'

/-- **C145 for the text (partial)** `Set` of an object or array in a parser that a program holds.  Missing: the paths without the `0` (`C145_text_fails`). -/
theorem C145_text_set_partial
    (hc : Call fl (go% Parser.Set) [.heap w.heap, .ptr p.core, .bytes p.json, .bytes x.render] path (.ok [.heap h', .ptr c, .bytes j, .nil])) :
    DeepText fl h' c j x x.render path := by
  obtain ⟨hh, hl, P, up, t, hr⟩ := hw.rep hp
  exact deepText_of hl (Set_sound hh hl ..) (set_sim hr x.render path) (hc.unique (text_Parser_Set fl hh p hl x.render path)) fun _ h => C145_set_partial hx hx' h

/-- **C145 for the text (partial)** `AddKeyValue` of an object or array with a key of two bytes or more that the parser does not know. -/
theorem C145_text_addKeyValue_partial {key : Text} {e : Err} (hk : 2 ≤ key.length)
    (hn : Call fl (go% Parser.Get) [.heap w.heap, .ptr p.core, .bytes p.json] (path ++ [key]) (.ok [.heap w.heap, .ptr p.core, .bytes p.json, .nil, .err e]))
    (hc : Call fl (go% Parser.AddKeyValue) [.heap w.heap, .ptr p.core, .bytes p.json, .bytes key, .bytes x.render] path (.ok [.heap h', .ptr c, .bytes j, .nil])) :
    DeepText fl h' c j x x.render (path ++ [key]) := by
  obtain ⟨hh, hl, P, up, t, hr⟩ := hw.rep hp
  have hg := get_err (hn.unique (text_get hh hl hr (path ++ [key])))
  refine deepText_of hl (AddKeyValue_sound hh hl ..) (addKeyValue_sim hr key x.render path) (hc.unique (text_Parser_AddKeyValue fl hh p hl key x.render path)) fun _ h => ?_
  simpa only [List.append_assoc, List.singleton_append] using C145_addKeyValue_partial hx hx' hk hg h

/-- **C145 for the text (partial)** After `AddKeyValue` of an object or array with a key of one byte, every path into it fails. -/
theorem C145_text_addKeyValue_short_partial {key : Text} {e : Err} (hk : key.length < 2)
    (hn : Call fl (go% Parser.Get) [.heap w.heap, .ptr p.core, .bytes p.json] (path ++ [key]) (.ok [.heap w.heap, .ptr p.core, .bytes p.json, .nil, .err e]))
    (hc : Call fl (go% Parser.AddKeyValue) [.heap w.heap, .ptr p.core, .bytes p.json, .bytes key, .bytes x.render] path (.ok [.heap h', .ptr c, .bytes j, .nil])) :
    Call fl (go% Parser.Get) [.heap h', .ptr c, .bytes j] (path ++ [key]) (.ok [.heap h', .ptr c, .bytes j, .bytes x.render, .nil]) ∧
      ∀ b r, Call fl (go% Parser.Get) [.heap h', .ptr c, .bytes j] (path ++ key :: b :: r) (.ok [.heap h', .ptr c, .bytes j, .nil, .err (.keyNotFound b)]) := by
  obtain ⟨hh, hl, P, up, t, hr⟩ := hw.rep hp
  have hg := get_err (hn.unique (text_get hh hl hr (path ++ [key])))
  have hs := AddKeyValue_sound hh hl key x.render path
  have hm := addKeyValue_sim hr key x.render path
  have he := hc.unique (text_Parser_AddKeyValue fl hh p hl key x.render path)
  cases hy : p.AddKeyValue w.heap key x.render path with
  | panic => rw [hy] at he; cases he
  | done p' h1 er =>
    rw [hy] at he hs hm
    simp only [presVals, R.ok.injEq, List.cons.injEq, Val.heap.injEq, Val.ptr.injEq, Val.bytes.injEq] at he
    obtain ⟨rfl, rfl, rfl, he, -⟩ := he
    cases er with
    | some e => simp [errVal] at he
    | none =>
      cases hM : P.AddKeyValue key x.render path with
      | panic => rw [hM] at hm; exact hm.elim
      | done P' e' =>
        rw [hM] at hm
        obtain ⟨rfl, t', hr', -⟩ := hm
        obtain ⟨s1, s2, s3⟩ := hs
        have hlt : p'.core < h'.length := by rw [s3]; exact Nat.lt_of_lt_of_le hl s2
        obtain ⟨g1, g2⟩ := C145_addKeyValue_short_partial hx hx' hk hg hM
        refine ⟨?_, fun b r => ?_⟩
        · have := text_get (fl := fl) s1 hlt hr' (path ++ [key])
          rw [g1] at this
          exact this
        · have := text_get (fl := fl) s1 hlt hr' (path ++ key :: b :: r)
          rw [g2] at this
          exact this

end

section
variable (fl : FloatLib UInt64) (calls : List TCall) (hcs : ∀ c ∈ calls, ∀ k pad b, c ≠ .base (.tree k pad b)) {answers : List TAns} {w : WorldP}
  (hrun : TRun fl ⟨[], []⟩ calls answers w) {k : Nat} {p : ParserP} {P : Parser} (hp : w.parsers[k]? = some p) (hP : (tVals fl [] calls).2[k]? = some P)
  {d : Doc} (hd : Reached P d) {path : List Text} {g : Text} {es : List (Elem Json)} (hne : path ≠ []) (hg : d.get? path = some (.arr g es))
  {x : Json} (hx : x.wf) (hx' : x.isContainer) {h' : NHeap} {c : Nat} {j : Bytes}
include hcs hrun hp hP hd hne hg hx hx'

/-- **C145 for the text (partial)** `Add` of an object or array to an array of a parser that `Parse` and calls of `PCall.ok` have made. -/
theorem C145_text_add_partial (hl : lone es = false)
    (hc : Call fl (go% Parser.Add) [.heap w.heap, .ptr p.core, .bytes p.json, .bytes x.render] path (.ok [.heap h', .ptr c, .bytes j, .nil])) :
    DeepText fl h' c j x x.render (path ++ [itoa es.length]) := by
  obtain ⟨hh, hlt, up, t, hr⟩ := run_rep fl calls hcs hrun hp hP
  refine deepText_of hlt (Add_sound hh hlt ..) (add_sim hr x.render path) (hc.unique (text_Parser_Add fl hh p hlt x.render path)) fun _ h => ?_
  simpa only [List.append_assoc, List.singleton_append] using C145_add_partial hx hx' hd hne hg hl h

/-- **C145 for the text (partial)** `Add` to an array of one scalar that the parser does not list: the new value is found at the index 0. -/
theorem C145_text_add_lone_partial (hl : lone es = true) {e : Err}
    (hn : Call fl (go% Parser.Get) [.heap w.heap, .ptr p.core, .bytes p.json] (path ++ [itoa 0]) (.ok [.heap w.heap, .ptr p.core, .bytes p.json, .nil, .err e]))
    (hc : Call fl (go% Parser.Add) [.heap w.heap, .ptr p.core, .bytes p.json, .bytes x.render] path (.ok [.heap h', .ptr c, .bytes j, .nil])) :
    DeepText fl h' c j x x.render (path ++ [itoa 0]) := by
  obtain ⟨hh, hlt, up, t, hr⟩ := run_rep fl calls hcs hrun hp hP
  have hg' := get_err (hn.unique (text_get hh hlt hr (path ++ [itoa 0])))
  refine deepText_of hlt (Add_sound hh hlt ..) (add_sim hr x.render path) (hc.unique (text_Parser_Add fl hh p hlt x.render path)) fun _ h => ?_
  simpa only [List.append_assoc, List.singleton_append] using C145_add_lone_partial hx hx' hd hne hg hl hg' h

/-- **C145 for the text (partial)** `Insert` into an array of such a parser. -/
theorem C145_text_insert_partial {i : Int}
    (hc : Call fl (go% Parser.Insert) [.heap w.heap, .ptr p.core, .bytes p.json, .int i, .bytes x.render] path (.ok [.heap h', .ptr c, .bytes j, .nil])) :
    DeepText fl h' c j x x.render (path ++ [itoa i]) := by
  obtain ⟨hh, hlt, up, t, hr⟩ := run_rep fl calls hcs hrun hp hP
  refine deepText_of hlt (Insert_sound hh hlt ..) (insert_sim hr i x.render path) (hc.unique (text_Parser_Insert fl hh p hlt i x.render path)) fun _ h => ?_
  simpa only [List.append_assoc, List.singleton_append] using C145_insert_partial hx hx' hd hne hg h

end

section
variable (fl : FloatLib UInt64) (calls : List TCall) (hcs : ∀ c ∈ calls, ∀ k pad b, c ≠ .base (.tree k pad b)) {answers : List TAns} {w : WorldP}
  (hrun : TRun fl ⟨[], []⟩ calls answers w) {k : Nat} {p : ParserP} {P : Parser} (hp : w.parsers[k]? = some p) (hP : (tVals fl [] calls).2[k]? = some P)
  {d : Doc} (hd : Reached P d) {g : Text} {es : List (Elem Json)} (hg : d.root = .arr g es) {x : Json} (hx : x.wf) (hx' : x.isContainer)
  {h' : NHeap} {c : Nat} {j : Bytes}
include hcs hrun hp hP hd hg hx hx'

/-- **C145 for the text (partial)** `Add` of an object or array to the array that is the root. -/
theorem C145_text_add_root_partial (hl : lone es = false)
    (hc : Call fl (go% Parser.Add) [.heap w.heap, .ptr p.core, .bytes p.json, .bytes x.render] [] (.ok [.heap h', .ptr c, .bytes j, .nil])) :
    DeepText fl h' c j x x.render [itoa es.length] := by
  obtain ⟨hh, hlt, up, t, hr⟩ := run_rep fl calls hcs hrun hp hP
  exact deepText_of hlt (Add_sound hh hlt ..) (add_sim hr x.render []) (hc.unique (text_Parser_Add fl hh p hlt x.render [])) fun _ h =>
    C145_add_root_partial hx hx' hd hg hl h

/-- **C145 for the text (partial)** `C145_text_add_lone_partial` for the root. -/
theorem C145_text_add_root_lone_partial (hl : lone es = true) {e : Err}
    (hn : Call fl (go% Parser.Get) [.heap w.heap, .ptr p.core, .bytes p.json] [itoa 0] (.ok [.heap w.heap, .ptr p.core, .bytes p.json, .nil, .err e]))
    (hc : Call fl (go% Parser.Add) [.heap w.heap, .ptr p.core, .bytes p.json, .bytes x.render] [] (.ok [.heap h', .ptr c, .bytes j, .nil])) :
    DeepText fl h' c j x x.render [itoa 0] := by
  obtain ⟨hh, hlt, up, t, hr⟩ := run_rep fl calls hcs hrun hp hP
  have hg' := get_err (hn.unique (text_get hh hlt hr [itoa 0]))
  exact deepText_of hlt (Add_sound hh hlt ..) (add_sim hr x.render []) (hc.unique (text_Parser_Add fl hh p hlt x.render [])) fun _ h =>
    C145_add_root_lone_partial hx hx' hd hg hl hg' h

/-- **C145 for the text (partial)** After `Insert` of an object or array into the array that is the root, `Get` gives the empty text for it. -/
theorem C145_text_insert_root_partial {i : Int}
    (hc : Call fl (go% Parser.Insert) [.heap w.heap, .ptr p.core, .bytes p.json, .int i, .bytes x.render] [] (.ok [.heap h', .ptr c, .bytes j, .nil])) :
    DeepText fl h' c j x [] [itoa i] := by
  obtain ⟨hh, hlt, up, t, hr⟩ := run_rep fl calls hcs hrun hp hP
  exact deepText_of hlt (Insert_sound hh hlt ..) (insert_sim hr i x.render []) (hc.unique (text_Parser_Insert fl hh p hlt i x.render [])) fun _ h =>
    C145_insert_root_partial hx hx' hd hg h

end

/-- **C145 does not hold of the text.** -/
theorem C145_text_fails (fl : FloatLib UInt64) : ∃ w p h' c, Left fl w ∧ w.parsers[0]? = some p ∧
    Call fl (go% Parser.Set) [.heap w.heap, .ptr p.core, .bytes p.json, .bytes (str "{\"b\":[5,6]}")] [str "a"]
      (.ok [.heap h', .ptr c, .bytes (str "{\"a\":{\"b\":[5,6]}}"), .nil]) ∧
    Call fl (go% Parser.Get) [.heap h', .ptr c, .bytes (str "{\"a\":{\"b\":[5,6]}}")] [str "a", str "b"]
      (.ok [.heap h', .ptr c, .bytes (str "{\"a\":{\"b\":[5,6]}}"), .nil, .err (.keyNotFound (str "b"))]) ∧
    Call fl (go% Get) [.bytes (str "{\"a\":{\"b\":[5,6]}}")] [str "a", str "b"] (.ok [.bytes (str "[5,6]"), .nil]) := by
  obtain ⟨P, P', hP, e2, e3⟩ := session_some C145_fails.1
  simp only [Prod.mk.injEq] at e3
  obtain ⟨e3, e7, -⟩ := e3
  obtain ⟨w, h⟩ := (C108_sessions fl [.base (.parse (str "{\"a\":1}"))] (by simp) _).2 rfl
  obtain ⟨w', L, k1, k2, hL⟩ := t_run (fl := fl) WRel.empty (fun _ _ h => by simp at h) [.base (.parse (str "{\"a\":1}"))] (by simp)
  obtain ⟨-, rfl⟩ := h.unique k1
  have e1 : (tVals fl [] [.base (.parse (str "{\"a\":1}"))]).2 = [P] := by simp [tVals, tVal, valStep, hP, TAns.isPanic, PAns.isPanic]
  rw [e1] at hL
  rcases hL.slot 0 with ⟨-, -, h0⟩ | ⟨s, s1, s2, s3⟩
  · simp at h0
  have hs := hL.rep 0 s s1
  have hP : s.P = P := by simpa using s3.symm
  rw [hP] at hs
  have hlt : s.p.core < w.heap.length := by rw [hs.core]; exact hs.holds.here.lt _ (ptr_mem s.t)
  have hm := set_sim hs (str "{\"b\":[5,6]}") [str "a"]
  have hc := text_Parser_Set fl k2 s.p hlt (str "{\"b\":[5,6]}") [str "a"]
  have hso := Set_sound k2 hlt (str "{\"b\":[5,6]}") [str "a"]
  have hget := text_Get fl (str "{\"a\":{\"b\":[5,6]}}") [str "a", str "b"]
  rw [C145_fails.2] at hget
  rw [e2] at hm
  cases hy : s.p.Set w.heap (str "{\"b\":[5,6]}") [str "a"] with
  | panic => rw [hy] at hm; exact hm.elim
  | done p' h' e' =>
    rw [hy] at hm hc hso
    obtain ⟨rfl, t', hr', -⟩ := hm
    obtain ⟨q1, q2, q3⟩ := hso
    have hg := text_get (fl := fl) q1 (by rw [q3]; exact Nat.lt_of_lt_of_le hlt q2) hr' [str "a", str "b"]
    rw [e7] at hg
    have hj : p'.json = str "{\"a\":{\"b\":[5,6]}}" := hr'.json.trans e3
    simp only [presVals, readVals, Out.map, hj, errVal] at hc hg
    exact ⟨w, s.p, h', p'.core, ⟨_, _, by simp, h⟩, s2, hc, hg, hget⟩

end Jin.Go
