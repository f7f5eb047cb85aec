import Verif.Props.TextParser
import Verif.Props.ParserMore
import Verif.Go.Text
/-!
# Property C109: what a parser of the text keeps in step

The properties C53, C54, C55, C64 and C65 of `Parser`, said of the text of /repo.
-/

namespace Jin.Go

open Jin.Spec

/-- A program on the text leaves the world `w`. -/
def Left (fl : FloatLib UInt64) (w : WorldP) : Prop :=
  ∃ calls answers, (∀ c ∈ calls, ∀ k pad b, c ≠ TCall.base (.tree k pad b)) ∧ TRun fl ⟨[], []⟩ calls answers w

section
variable {fl : FloatLib UInt64} {w : WorldP}

theorem Left.rel (h : Left fl w) : ∃ vs L, WRel w vs L ∧ Closed w.heap := by
  obtain ⟨calls, answers, hc, h⟩ := h
  obtain ⟨w', L, h1, h2, hL⟩ := t_run (fl := fl) WRel.empty (fun _ _ h => by simp at h) calls hc
  obtain ⟨-, rfl⟩ := h.unique h1
  exact ⟨_, L, hL, h2⟩

/-- A parser of the text stands for a parser that is a value. -/
theorem Left.rep (h : Left fl w) {k : Nat} {p : ParserP} (hp : w.parsers[k]? = some p) :
    Closed w.heap ∧ p.core < w.heap.length ∧ ∃ P up t, Rep w.heap p P up t := by
  obtain ⟨vs, L, hL, hh⟩ := h.rel
  rcases hL.slot k with ⟨-, k2, -⟩ | ⟨s, k1, k2, k3⟩
  · rw [k2] at hp; cases hp
  rw [k2] at hp
  cases hp
  have hs := hL.rep k s k1
  exact ⟨hh, by rw [hs.core]; exact hs.holds.here.lt _ (ptr_mem s.t), s.P, s.up, s.t, hs⟩

theorem text_get {h : NHeap} (hh : Closed h) {p : ParserP} (hp : p.core < h.length) {P : Parser} {up : Option Nat} {t : PTree} (hr : Rep h p P up t) (path : List Bytes) :
    Call fl (go% Parser.Get) [.heap h, .ptr p.core, .bytes p.json] path (readVals h p .nil ((P.Get path).map .bytes)) := by
  rw [← get_sim hr, ← readVals_bytes]
  exact text_Parser_Get fl hh p hp path

theorem get_walks {P : Parser} {path : List Bytes} {v : Bytes} (hp : path ≠ []) (h : P.Get path = .ok v) : ∃ nd, P.core.walk path = .ok nd := by
  have hl : (path.length == 0) = false := by cases path <;> simp_all
  rw [Parser.Get, hl] at h
  cases hw : P.core.walk path with
  | ok nd => exact ⟨nd, rfl⟩
  | err e => rw [hw] at h; cases h
  | panic => rw [hw] at h; cases h

theorem set_walks {P P' : Parser} {v : Bytes} {path : List Bytes} (hp : path ≠ []) (h : P.Set v path = .done P' none) : ∃ nd, P.core.walk path = .ok nd := by
  have hl : (path.length == 0) = false := by cases path <;> simp_all
  rw [Parser.Set, hl] at h
  cases hw : P.core.walk path with
  | ok nd => exact ⟨nd, rfl⟩
  | err e => rw [hw] at h; cases h
  | panic => rw [hw] at h; cases h

theorem delete_walks {P P' : Parser} {path : List Bytes} (hp : path ≠ []) (h : P.Delete path = .done P' none) : ∃ nd, P.core.walk path = .ok nd := by
  have hl : (path.length == 0) = false := by cases path <;> simp_all
  rw [Parser.Delete, hl] at h
  cases hw : P.core.walk path with
  | ok nd => exact ⟨nd, rfl⟩
  | err e => rw [hw] at h; cases h
  | panic => rw [hw] at h; cases h

end

/-! ### C109 -/

/-- **C109** `Parse` of the text on a well formed object or array succeeds, and `Get` of the text on the parser gives the content
of the value that the path leads to in the tree (C53: all values but the element of a one-element array of a scalar), and an
error on every other path. -/
theorem C109_parse (fl : FloatLib UInt64) {w : WorldP} (hw : Left fl w) {d : Doc} (hd : d.wf) (hc : d.root.isContainer) :
    ∃ h c, Call1 fl (go% Parse) [.heap w.heap, .bytes d.render] (.ok [.heap h, .ptr c, .bytes d.render, .nil]) ∧ ∀ path,
      if path = [] then Call fl (go% Parser.Get) [.heap h, .ptr c, .bytes d.render] path (.ok [.heap h, .ptr c, .bytes d.render, .bytes d.render, .nil])
      else match d.root.treeGet? path with
        | some v => Call fl (go% Parser.Get) [.heap h, .ptr c, .bytes d.render] path (.ok [.heap h, .ptr c, .bytes d.render, .bytes v.content, .nil])
        | none => ∃ x ∈ path, Call fl (go% Parser.Get) [.heap h, .ptr c, .bytes d.render] path (.ok [.heap h, .ptr c, .bytes d.render, .nil, .err (.keyNotFound x)]) := by
  obtain ⟨vs, L, hL, hh⟩ := hw.rel
  have ht := text_Parse fl hh (json := d.render)
  have hs := parse_sim d.render w.heap
  obtain ⟨P, hP, -⟩ := C53_exact hd hc []
  rw [hP] at hs
  cases hx : ParseP d.render w.heap with
  | panic => rw [hx] at hs; exact hs.elim
  | err e => rw [hx] at hs; exact hs.elim
  | ok x =>
    obtain ⟨p, h'⟩ := x
    simp only [hx] at ht hs
    obtain ⟨⟨up, t, hr, -⟩, -, -⟩ := hs
    have hj : p.json = d.render := by
      rw [hr.json]
      rw [Parse_ok hd hc] at hP
      cases hP
      rfl
    rw [hj] at ht
    refine ⟨h', p.core, ht.1, fun path => ?_⟩
    have hg := text_get (fl := fl) ht.2.1 ht.2.2.1 hr path
    rw [hj] at hg
    obtain ⟨P', hP', he⟩ := C53_exact hd hc path
    rw [hP] at hP'
    cases hP'
    split at he
    · next h => rw [if_pos h]; rw [he] at hg; simpa only [Out.map, readVals, hj] using hg
    · next h =>
      rw [if_neg h]
      cases hv : d.root.treeGet? path with
      | some v => rw [hv] at he; simp only at he ⊢; rw [he] at hg; simpa only [Out.map, readVals, hj] using hg
      | none =>
        rw [hv] at he
        obtain ⟨x, hx, he⟩ := he
        refine ⟨x, hx, ?_⟩
        rw [he] at hg
        simpa only [Out.map, readVals, hj] using hg

/-- **C109** After `Set` of the text on a parser that a program holds, with a scalar and on a path that `Get` of the text
resolves, `Get` of the text gives the scalar there, and what it gave before on every path that is not a prefix of it. -/
theorem C109_get_after_set (fl : FloatLib UInt64) {w : WorldP} (hw : Left fl w) {k : Nat} {p : ParserP} (hp : w.parsers[k]? = some p)
    {x : Json} (hx : x.wf) (hc : x.isContainer = false) {path : List Bytes} (hne : path ≠ []) {b : Bytes}
    (hg : Call fl (go% Parser.Get) [.heap w.heap, .ptr p.core, .bytes p.json] path (.ok [.heap w.heap, .ptr p.core, .bytes p.json, .bytes b, .nil]))
    {h : NHeap} {c : Nat} {j : Bytes} {e : Val}
    (hs : Call fl (go% Parser.Set) [.heap w.heap, .ptr p.core, .bytes p.json, .bytes x.render] path (.ok [.heap h, .ptr c, .bytes j, e])) :
    Call fl (go% Parser.Get) [.heap h, .ptr c, .bytes j] path (.ok [.heap h, .ptr c, .bytes j, .bytes x.content, .nil]) ∧
    ∀ q, ¬ q <+: path → ∃ o : Out Bytes,
      Call fl (go% Parser.Get) [.heap w.heap, .ptr p.core, .bytes p.json] q (match o with
        | .ok v => .ok [.heap w.heap, .ptr p.core, .bytes p.json, .bytes v, .nil]
        | .err e => .ok [.heap w.heap, .ptr p.core, .bytes p.json, .nil, .err e]
        | .panic => .panic) ∧
      Call fl (go% Parser.Get) [.heap h, .ptr c, .bytes j] q (match o with
        | .ok v => .ok [.heap h, .ptr c, .bytes j, .bytes v, .nil]
        | .err e => .ok [.heap h, .ptr c, .bytes j, .nil, .err e]
        | .panic => .panic) := by
  obtain ⟨hh, hlt, P, up, t, hr⟩ := hw.rep hp
  have hv : ∃ nd, P.core.walk path = .ok nd := by
    have := (text_get (fl := fl) hh hlt hr path).unique hg
    cases hv : P.Get path with
    | ok v => exact get_walks hne hv
    | err e => rw [hv] at this; cases this
    | panic => rw [hv] at this; cases this
  obtain ⟨nd, hv⟩ := hv
  have h1 := (text_Parser_Set fl hh p hlt x.render path).unique hs
  have h2 := set_sim hr x.render path
  have h3 := Set_sound hh hlt x.render path
  cases hset : p.Set w.heap x.render path with
  | panic => rw [hset] at h1; cases h1
  | done p' h' e' =>
    rw [hset] at h1 h2 h3
    cases hP : P.Set x.render path with
    | panic => rw [hP] at h2; exact h2.elim
    | done P' e'' =>
      rw [hP] at h2
      obtain ⟨rfl, t', hr', -⟩ := h2
      obtain ⟨k1, k2, k3⟩ := h3
      cases h1
      obtain ⟨c1, c2⟩ := C55_get_after_set hne hx hc hv hP
      have hlt' : p'.core < List.length h := by rw [k3]; exact Nat.lt_of_lt_of_le hlt k2
      refine ⟨?_, fun q hq => ⟨P.Get q, ?_, ?_⟩⟩
      · have := text_get (fl := fl) k1 hlt' hr' path
        rwa [c1] at this
      · have := text_get (fl := fl) hh hlt hr q
        rwa [← readVals_bytes] at this
      · have := text_get (fl := fl) k1 hlt' hr' q
        rwa [c2 q hq, ← readVals_bytes] at this

/-- The calls of mutators of the text that the next theorem speaks of: the method, the function, and the arguments. -/
inductive Same : Id → Id → List Val → Prop
  | set (v : Bytes) : Same (go% Parser.Set) (go% Set) [.bytes v]
  | delete : Same (go% Parser.Delete) (go% Delete) []
  | setKey (v : Bytes) : Same (go% Parser.SetKey) (go% SetKey) [.bytes v]
  | add (v : Bytes) : Same (go% Parser.Add) (go% Add) [.bytes v]
  | addKeyValue (k v : Bytes) : Same (go% Parser.AddKeyValue) (go% AddKeyValue) [.bytes k, .bytes v]

/-- **C109** A mutator of the text on a parser that a program holds, on a path that is not empty, that returns no error, leaves the text
that the function of the same name of the text makes of the text it had. -/
theorem C109_same_text (fl : FloatLib UInt64) {w : WorldP} (hw : Left fl w) {k : Nat} {p : ParserP} (hp : w.parsers[k]? = some p)
    {f g : Id} {args : List Val} (hf : Same f g args) {path : List Bytes} (hne : path ≠ []) {h : NHeap} {c : Nat} {j : Bytes}
    (hs : Call fl f (.heap w.heap :: .ptr p.core :: .bytes p.json :: args) path (.ok [.heap h, .ptr c, .bytes j, .nil])) :
    ∃ e, Call fl g (.bytes p.json :: args) path (.ok [.bytes j, e]) := by
  obtain ⟨hh, hlt, P, up, t, hr⟩ := hw.rep hp
  have pick : ∀ {r : PResP} {R : PRes}, presVals r = .ok [.heap h, .ptr c, .bytes j, .nil] → PRel w.heap up t r R → ∃ P', R = .done P' none ∧ P'.json = j := by
    intro r R h1 h2
    cases r with
    | panic => cases h1
    | done p' h' e =>
      cases R with
      | panic => exact h2.elim
      | done P' e' =>
        obtain ⟨rfl, t', hr', -⟩ := h2
        cases e with
        | some e => cases h1
        | none => cases h1; exact ⟨P', rfl, hr'.json.symm⟩
  have over : ∀ {m : Mut}, (∃ e', m = .done j e') → ∃ e, mutVals m = .ok [.bytes j, e] := by
    rintro m ⟨e', rfl⟩
    cases e' with
    | none => exact ⟨_, rfl⟩
    | some e => exact ⟨_, rfl⟩
  cases hf with
  | set v =>
    obtain ⟨P', h1, rfl⟩ := pick ((text_Parser_Set fl hh p hlt v path).unique hs) (set_sim hr v path)
    have : ∃ nd, P.core.walk path = .ok nd := set_walks hne h1
    obtain ⟨nd, hv⟩ := this
    obtain ⟨e, he⟩ := over (C54_set hne hv h1)
    have ht := text_Set fl p.json path (some v)
    rw [hr.json] at ht ⊢
    exact ⟨e, he ▸ ht⟩
  | delete =>
    obtain ⟨P', h1, rfl⟩ := pick ((text_Parser_Delete fl hh p hlt path).unique hs) (delete_sim hr path)
    obtain ⟨nd, hv⟩ := delete_walks hne h1
    obtain ⟨e', h2, -⟩ := C54_delete hne hv h1
    obtain ⟨e, he⟩ := over ⟨e', h2⟩
    have ht := text_Delete fl p.json path
    rw [hr.json] at ht ⊢
    exact ⟨e, he ▸ ht⟩
  | setKey v =>
    obtain ⟨P', h1, rfl⟩ := pick ((text_Parser_SetKey fl hh p hlt v path).unique hs) (setKey_sim hr v path)
    obtain ⟨e, he⟩ := over (C54_setKey h1)
    have ht := text_SetKey fl p.json path v
    rw [hr.json] at ht ⊢
    exact ⟨e, he ▸ ht⟩
  | add v =>
    obtain ⟨P', h1, rfl⟩ := pick ((text_Parser_Add fl hh p hlt v path).unique hs) (add_sim hr v path)
    obtain ⟨e, he⟩ := over ⟨_, C56_nested_add_partial hne h1⟩
    have ht := text_Add fl p.json path (some v)
    rw [hr.json] at ht ⊢
    exact ⟨e, he ▸ ht⟩
  | addKeyValue key v =>
    obtain ⟨P', h1, rfl⟩ := pick ((text_Parser_AddKeyValue fl hh p hlt key v path).unique hs) (addKeyValue_sim hr key v path)
    obtain ⟨e, he⟩ := over ⟨_, C56_nested_addKeyValue_partial hne h1⟩
    have ht := text_AddKeyValue fl p.json path key (some v)
    rw [hr.json] at ht ⊢
    exact ⟨e, he ▸ ht⟩

/-- The conditions of `C109_parse` are met, and so are those of `C109_get_after_set` and `C109_same_text`: the sample is parsed, and the value at
a path set to `7`. -/
example (fl : FloatLib UInt64) : Left fl ⟨[], []⟩ ∧ Sample.doc.wf ∧ Sample.doc.root.isContainer ∧
    ∃ (w : WorldP) (p : ParserP) (b : Bytes) (h : NHeap) (c : Nat) (j : Bytes), Left fl w ∧ w.parsers[0]? = some p ∧
      Call fl (go% Parser.Get) [.heap w.heap, .ptr p.core, .bytes p.json] Sample.toTrue (.ok [.heap w.heap, .ptr p.core, .bytes p.json, .bytes b, .nil]) ∧
      Call fl (go% Parser.Set) [.heap w.heap, .ptr p.core, .bytes p.json, .bytes (Json.lit (str "7")).render] Sample.toTrue (.ok [.heap h, .ptr c, .bytes j, .nil]) := by
  refine ⟨⟨[], [], by simp, .nil⟩, Sample.doc_wf, rfl, ?_⟩
  obtain ⟨p1, h1, -⟩ := parse_sync Sample.doc_wf rfl
  have r1 := Reached.parse Sample.doc_wf rfl h1
  have o1 : PCall.ok Sample.doc (.set Sample.toTrue (.lit (str "7"))) :=
    ⟨by decide +kernel, by decide +kernel, rfl, .lit bTrue, ⟨Sample.get_true, by decide +kernel⟩, rfl⟩
  obtain ⟨p2, d2, h2, -, -⟩ := C64_call_partial r1 o1
  have h2 : p1.Set (Json.lit (str "7")).render Sample.toTrue = .done p2 none := h2
  obtain ⟨w, h⟩ := (C108_sessions fl [.base (.parse Sample.doc.render)] (by simp) _).2 rfl
  have hw : Left fl w := ⟨_, _, by simp, h⟩
  obtain ⟨w', L, k1, k2, hL⟩ := t_run (fl := fl) WRel.empty (fun _ _ h => by simp at h) [.base (.parse Sample.doc.render)] (by simp)
  obtain ⟨-, rfl⟩ := h.unique k1
  have e1 : (tVals fl [] [.base (.parse Sample.doc.render)]).2 = [p1] := by simp [tVals, tVal, valStep, h1, TAns.isPanic, PAns.isPanic]
  rw [e1] at hL
  rcases hL.slot 0 with ⟨-, -, h0⟩ | ⟨s, s1, s2, s3⟩
  · simp at h0
  have hs := hL.rep 0 s s1
  have hP : s.P = p1 := by simpa using s3.symm
  rw [hP] at hs
  have hlt : s.p.core < w.heap.length := by rw [hs.core]; exact hs.holds.here.lt _ (ptr_mem s.t)
  obtain ⟨nd, hn⟩ := set_walks (by decide +kernel) h2
  have hg := text_get (fl := fl) k2 hlt hs Sample.toTrue
  have hset := text_Parser_Set fl k2 s.p hlt (Json.lit (str "7")).render Sample.toTrue
  have hsim := set_sim hs (Json.lit (str "7")).render Sample.toTrue
  rw [h2] at hsim
  obtain ⟨-, hv, -⟩ := C64_session_partial r1
  rw [hv Sample.toTrue (.lit bTrue) (by decide +kernel) (by decide +kernel)] at hg
  cases hr : s.p.Set w.heap (Json.lit (str "7")).render Sample.toTrue with
  | panic => rw [hr] at hsim; exact hsim.elim
  | done p' h' e =>
    rw [hr] at hsim hset
    obtain ⟨rfl, -⟩ := hsim
    exact ⟨w, s.p, _, h', p'.core, p'.json, hw, s2, hg, hset⟩

/-- The function of the package that goes with a typed getter. -/
def TGet.fn : TGet → Id
  | .string => go% GetString | .int => go% GetInt | .float => go% GetFloat | .bool => go% GetBool
  | .strings => go% GetStringArray | .ints => go% GetIntArray | .floats => go% GetFloatArray | .bools => go% GetBoolArray

theorem both {fl : FloatLib UInt64} {f1 f2 : Id} {h : NHeap} {p : ParserP} {path : List Bytes} {dflt : Val} {o : Out Val} {α : Type} {f : α → Val} {x : Out α}
    (k1 : Call fl f1 [.heap h, .ptr p.core, .bytes p.json] path (match o with
      | .ok v => .ok [.heap h, .ptr p.core, .bytes p.json, v, .nil]
      | .err e => .ok [.heap h, .ptr p.core, .bytes p.json, dflt, .err e]
      | .panic => .panic)) (ho : o = x.map f) (k2 : Call fl f2 [.bytes p.json] path (oneVal f dflt x)) :
    ∃ o : Option (Val × Val),
      Call fl f1 [.heap h, .ptr p.core, .bytes p.json] path (match o with
        | some (v, e) => .ok [.heap h, .ptr p.core, .bytes p.json, v, e]
        | none => .panic) ∧
      Call fl f2 [.bytes p.json] path (match o with
        | some (v, e) => .ok [v, e]
        | none => .panic) := by
  subst ho
  cases x with
  | ok v => exact ⟨some (f v, .nil), k1, k2⟩
  | err e => exact ⟨some (dflt, .err e), k1, k2⟩
  | panic => exact ⟨none, k1, k2⟩

/-- **C109 (partial)** Of a parser that a program holds and that `Parse` and calls of `PCall.ok` have made, each typed getter of the text
gives, on every path that its tree resolves, what the function of the text gives on the text it holds.  Missing: the other
calls (`C64_fails`). -/
theorem C109_in_step_partial (fl : FloatLib UInt64) (calls : List TCall) (hc : ∀ c ∈ calls, ∀ k pad b, c ≠ .base (.tree k pad b)) {answers : List TAns} {w : WorldP}
    (h : TRun fl ⟨[], []⟩ calls answers w) {k : Nat} {p : ParserP} {P : Parser} (hp : w.parsers[k]? = some p) (hP : (tVals fl [] calls).2[k]? = some P)
    {d : Doc} (hd : Reached P d) (hb : (d.render.length : Int) ≤ 9223372036854775807) {path : List Bytes} {nd : Node} (hw : P.core.walk path = .ok nd) (g : TGet) :
    ∃ o : Option (Val × Val),
      Call fl g.call [.heap w.heap, .ptr p.core, .bytes p.json] path (match o with
        | some (v, e) => .ok [.heap w.heap, .ptr p.core, .bytes p.json, v, e]
        | none => .panic) ∧
      Call fl g.fn [.bytes p.json] path (match o with
        | some (v, e) => .ok [v, e]
        | none => .panic) := by
  obtain ⟨-, h1⟩ := C108_reads fl calls hc answers w h
  obtain ⟨hj, h2⟩ := h1 k p P hp hP
  obtain ⟨a1, a2, a3, a4, a5, a6, a7, a8⟩ := C65_typed_partial fl hd hb hw
  rw [← hj] at a1 a2 a3 a4 a5 a6 a7 a8
  cases g with
  | string => exact both (h2 .string path) (congrArg (Out.map _) a1) (text_GetString fl p.json path)
  | int => exact both (h2 .int path) (congrArg (Out.map _) a2) (text_GetInt fl p.json path)
  | float => exact both (h2 .float path) (congrArg (Out.map _) a3) (text_GetFloat fl p.json path)
  | bool => exact both (h2 .bool path) (congrArg (Out.map _) a4) (text_GetBool fl p.json path)
  | strings => exact both (h2 .strings path) (congrArg (Out.map _) a5) (text_GetStringArray fl p.json path)
  | ints => exact both (h2 .ints path) (congrArg (Out.map _) a6) (text_GetIntArray fl p.json path)
  | floats => exact both (h2 .floats path) (congrArg (Out.map _) a7) (text_GetFloatArray fl p.json path)
  | bools => exact both (h2 .bools path) (congrArg (Out.map _) a8) (text_GetBoolArray fl p.json path)

/-- A program whose parser meets the conditions of `C109_in_step_partial`: the sample is parsed, and a value in it set. -/
example (fl : FloatLib UInt64) : ∃ P d nd, (tVals fl [] [.base (.parse Sample.doc.render), .typed 0 (.setInt 7) Sample.toTrue]).2[0]? = some P ∧ Reached P d ∧
    P.core.walk Sample.toTrue = .ok nd ∧ ∃ w p, TRun fl ⟨[], []⟩ [.base (.parse Sample.doc.render), .typed 0 (.setInt 7) Sample.toTrue]
      (tVals fl [] [.base (.parse Sample.doc.render), .typed 0 (.setInt 7) Sample.toTrue]).1 w ∧ w.parsers[0]? = some p := by
  obtain ⟨p1, h1, -⟩ := parse_sync Sample.doc_wf rfl
  have r1 := Reached.parse Sample.doc_wf rfl h1
  have o1 : PCall.ok Sample.doc (.set Sample.toTrue (.lit (str "7"))) :=
    ⟨by decide +kernel, by decide +kernel, rfl, .lit bTrue, ⟨Sample.get_true, by decide +kernel⟩, rfl⟩
  obtain ⟨p2, d2, h2, g2, r2⟩ := C64_call_partial r1 o1
  have h2 : p1.SetInt 7 Sample.toTrue = .done p2 none := by
    have e7 : itoa 7 = str "7" := by decide +kernel
    rw [Parser.SetInt, e7]
    exact h2
  have e1 : tVals fl [] [.base (.parse Sample.doc.render), .typed 0 (.setInt 7) Sample.toTrue] = ([.base (.parsed none), .base (.did p2.json none)], [p2]) := by
    simp [tVals, tVal, valStep, h1, valMut, TMut.val, h2, TAns.isPanic, PAns.isPanic]
  obtain ⟨w, h⟩ := (C108_sessions fl [.base (.parse Sample.doc.render), .typed 0 (.setInt 7) Sample.toTrue] (by simp) _).2 rfl
  obtain ⟨hl, -⟩ := C108_reads fl _ (by simp) _ w h
  rw [e1] at hl ⊢
  have g2 : d2 = Sample.doc.set Sample.toTrue (.lit (str "7")) := g2
  obtain ⟨-, hs, -⟩ := C64_session_partial r2
  have ht : ∃ v, d2.root.treeGet? Sample.toTrue = some v := by
    rw [g2]
    exact Option.isSome_iff_exists.1 (by decide +kernel)
  obtain ⟨v, ht⟩ := ht
  obtain ⟨nd, hn⟩ := get_walks (by decide +kernel) (hs Sample.toTrue v (by decide +kernel) ht)
  refine ⟨p2, d2, nd, rfl, r2, hn, w, w.parsers[0]'(by rw [hl]; exact Nat.one_pos), ?_, by simp⟩
  rw [e1] at h
  exact h

end Jin.Go
