import Verif.Go.Scheme
import Verif.Props.Text
import Verif.Props.Walk
import Verif.Props.Make
import Verif.Props.Scheme
import Verif.Props.Mutate
import Verif.Props.Types
import Verif.Props.Bulk
/-!
# Properties C105 and C106: `Walk`, maps and `Scheme` of the text

The statements speak of the text of /repo (`Verif.Go.Source`) alone: `Call`, `Call1` and `CallCb` run it.
-/

namespace Jin.Go
open Spec

/-! ### C105 -/

/-- **C105** `Walk` of the text comes to an end on every text, for every function that it calls. -/
theorem C105_walk_ends {σ : Type} (fl : FloatLib UInt64) (json : Bytes) (cb : σ → Bytes → Bytes → List Bytes → Cb σ) (u : σ) :
    ∃ r, r ≠ .stuck ∧ CallCb fl (cb3 cb) (go% Walk) [.bytes json, .nil] u r := by
  refine ⟨_, ?_, text_Walk fl json cb u⟩
  rcases Walk (fun s => (fl.parse s).isSome) json cb u with ⟨u', _ | e⟩ | _ <;> simp [iterVal]

/-- **C105** `Walk` of the text calls a function that returns no error once per scalar, in the order of the document, with
the last entry of its path, its content and its path (C57). -/
theorem C105_walk {σ : Type} (fl : FloatLib UInt64) (d : Doc) (hd : d.wf) (hl : (d.render.length : Int) ≤ 9223372036854775807)
    (hc : d.root.isContainer) (hw : d.root.walkable) (f : σ → Bytes → Bytes → List Bytes → σ)
    (b : σ → Bytes → Bytes → List Bytes → Bool) (u : σ) :
    CallCb fl (cb3 fun u k v p => .ret (f u k v p) (b u k v p) none) (go% Walk) [.bytes d.render, .nil] u
      (.ok ((d.root.leaves []).foldl (fun u l => f u (l.1.getLast?.getD []) l.2 l.1) u, [.nil])) := by
  have h := text_Walk fl d.render (fun u k v p => .ret (f u k v p) (b u k v p) none) u
  rw [C57_walk d hd hl hc hw] at h
  exact h

/-- The leaves of a sample document. -/
example : Sample.ab.wf ∧ Sample.ab.root.isContainer ∧ Sample.ab.root.walkable ∧
    Sample.ab.root.leaves [] = [([str "a", str "b"], str "1"), ([str "c"], str "2")] := by
  refine ⟨?_, ?_, ?_, ?_⟩ <;> decide +kernel

/-- **C105 (partial)** `GetMap` of the text on an object at the root (C34).  Missing: what C34 misses. -/
theorem C105_getMap_partial (fl : FloatLib UInt64) {d : Doc} {g : Text} {ms : List (Member Json)} (hd : d.wf)
    (h : d.root = .obj g ms) (hm : ms ≠ []) (hl : ∀ m ∈ ms, m.loose = false) :
    ∃ m, Call fl (go% GetMap) [.bytes d.render] [] (.ok [.map m, .nil]) ∧ ∀ k, GoMap.get? m k = lastMember ms k := by
  obtain ⟨m, h1, h2⟩ := C34_root_object_partial hd h hm hl
  have := text_GetMap (fl := fl) d.render []
  rw [h1] at this
  exact ⟨m, this, h2⟩

/-- **C105** `GetAllMap` of the text holds what `Get` of the text finds under each key asked for, and nothing else (C35). -/
theorem C105_getAllMap (fl : FloatLib UInt64) (json : Bytes) (path keys : List Bytes) (m : GoMap)
    (h : Call fl (go% GetAllMap) [.bytes json, .strs keys] path (.ok [.map m, .nil])) :
    (∀ k ∈ keys, ∃ v, Call fl (go% Get) [.bytes json] (path ++ [k]) (.ok [.bytes v, .nil]) ∧ GoMap.get? m k = some v) ∧
      ∀ k, k ∉ keys → GoMap.get? m k = none := by
  have e := h.unique (text_GetAllMap json path keys)
  cases hr : GetAllMap json keys path with
  | err x => rw [hr] at e; simp [oneVal] at e
  | panic => rw [hr] at e; simp [oneVal] at e
  | ok m' =>
    rw [hr] at e
    simp only [oneVal, R.ok.injEq, List.cons.injEq, Val.map.injEq, and_true] at e
    subst e
    obtain ⟨h1, h2⟩ := C35_getAllMap_ok json path keys m hr
    refine ⟨fun k hk => ?_, h2⟩
    obtain ⟨v, hv, hm⟩ := h1 k hk
    have := text_Get fl json (path ++ [k])
    rw [hv] at this
    exact ⟨v, this, hm⟩

/-- Two keys of the sample document. -/
example (fl : FloatLib UInt64) : Call fl (go% GetAllMap) [.bytes Sample.ab.render, .strs [str "c"]] []
    (.ok [.map [(str "c", str "2")], .nil]) := by
  have := text_GetAllMap (fl := fl) Sample.ab.render [] [str "c"]
  rw [show GetAllMap Sample.ab.render [str "c"] [] = .ok [(str "c", str "2")] by decide +kernel] at this
  exact this

/-! ### C106 -/

/-- A call that changes a scheme: the method and its arguments. -/
def schemeCall : SchemeOp → Id × List Val
  | .add k => (go% Scheme.Add, [.bytes k])
  | .remove k => (go% Scheme.Remove, [.bytes k])
  | .save => (go% Scheme.Save, [])
  | .restore => (go% Scheme.Restore, [])

/-- The fields `originalKeys`, `keys` of a scheme after a history of calls of the text. -/
inductive History (fl : FloatLib UInt64) : List SchemeOp → Val → Val → Val → Val → Prop
  | nil (o k : Val) : History fl [] o k o k
  | cons {op : SchemeOp} {ops : List SchemeOp} {o k o' k' o'' k'' : Val} {rs : List Val} :
    Call1 fl (schemeCall op).1 (o :: k :: (schemeCall op).2) (.ok (o' :: k' :: rs)) → History fl ops o' k' o'' k'' →
    History fl (op :: ops) o k o'' k''

theorem step_ok {s : Scheme} (h : s.originalNil = false ∧ s.keysNil = false) (op : SchemeOp) :
    (s.step op).originalNil = false ∧ (s.step op).keysNil = false := by
  cases op with
  | add k =>
    show (s.Add k).1.originalNil = false ∧ (s.Add k).1.keysNil = false
    unfold Scheme.Add
    split
    · exact h
    · exact ⟨h.1, rfl⟩
  | remove k => exact ⟨h.1, rfl⟩
  | save => exact ⟨h.2, h.2⟩
  | restore => exact ⟨h.1, h.1⟩

theorem schemeVals_ok {s : Scheme} (h : s.originalNil = false ∧ s.keysNil = false) : schemeVals s = [.strs s.originalKeys, .strs s.keys] := by
  rw [schemeVals, h.1, h.2]; rfl

theorem ok_of {s : Scheme} (h : s.originalNil = false ∧ s.keysNil = false) : SchemeOk s := by simp [SchemeOk, h.1, h.2]

theorem step_call (fl : FloatLib UInt64) {s : Scheme} (h : s.originalNil = false ∧ s.keysNil = false) (op : SchemeOp) :
    ∃ rs, Call1 fl (schemeCall op).1 (.strs s.originalKeys :: .strs s.keys :: (schemeCall op).2)
      (.ok (.strs (s.step op).originalKeys :: .strs (s.step op).keys :: rs)) := by
  have h' := step_ok h op
  cases op with
  | add k =>
    have := text_Scheme_Add (fl := fl) s (ok_of h) k
    rw [schemeVals_ok h, schemeVals_ok (s := (s.Add k).1) h'] at this
    exact ⟨_, this⟩
  | remove k =>
    have := text_Scheme_Remove (fl := fl) s (ok_of h) k
    rw [schemeVals_ok h, schemeVals_ok (s := (s.Remove k).1) h'] at this
    exact ⟨_, this⟩
  | save =>
    have := text_Scheme_Save (fl := fl) s
    rw [schemeVals_ok h, schemeVals_ok (s := s.Save) h'] at this
    exact ⟨_, this⟩
  | restore =>
    have := text_Scheme_Restore (fl := fl) s
    rw [schemeVals_ok h, schemeVals_ok (s := s.Restore) h'] at this
    exact ⟨_, this⟩

theorem history_run (fl : FloatLib UInt64) (ops : List SchemeOp) : ∀ (s : Scheme), s.originalNil = false ∧ s.keysNil = false →
    History fl ops (.strs s.originalKeys) (.strs s.keys) (.strs (s.run ops).originalKeys) (.strs (s.run ops).keys) := by
  induction ops with
  | nil => intro s h; exact .nil _ _
  | cons op ops ih =>
    intro s h
    obtain ⟨rs, hc⟩ := step_call fl h op
    exact .cons hc (ih (s.step op) (step_ok h op))

/-- A history has one outcome. -/
theorem History.unique {fl : FloatLib UInt64} {ops : List SchemeOp} {o k a b : Val} (h : History fl ops o k a b) :
    ∀ {a' b' : Val}, History fl ops o k a' b' → a = a' ∧ b = b' := by
  induction h with
  | nil o k => intro a' b' h'; cases h'; exact ⟨rfl, rfl⟩
  | cons hc _ ih =>
    intro a' b' h'
    cases h' with
    | cons hc' h' =>
      have := hc.unique hc'
      simp only [R.ok.injEq, List.cons.injEq] at this
      obtain ⟨rfl, rfl, -⟩ := this
      exact ih h'

/-- **C106** `MakeScheme` of the text, then any calls, `Save`, and any calls other than `Save`: `Restore` gives the keys as
they were at the `Save` (C48). -/
theorem C106_restore (fl : FloatLib UInt64) (keys : List Bytes) (hk : keys ≠ []) (before after : List SchemeOp)
    (h : ∀ op ∈ after, op matches .save → False) :
    ∃ o k, Call fl (go% MakeScheme) [] keys (.ok [o, k]) ∧ ∃ o₁ k₁ o₂, History fl before o k o₁ k₁ ∧
      History fl (before ++ [.save] ++ after ++ [.restore]) o k o₂ k₁ := by
  have hm := text_MakeScheme (fl := fl) keys hk
  have h0 : (MakeScheme keys).originalNil = false ∧ (MakeScheme keys).keysNil = false := by
    cases keys with
    | nil => exact absurd rfl hk
    | cons => exact ⟨rfl, rfl⟩
  rw [schemeVals_ok h0] at hm
  refine ⟨_, _, hm, _, _, .strs ((MakeScheme keys).run (before ++ [.save] ++ after ++ [.restore])).originalKeys, history_run fl before _ h0, ?_⟩
  have := history_run fl (before ++ [.save] ++ after ++ [.restore]) _ h0
  have e : ((MakeScheme keys).run (before ++ [.save] ++ after ++ [.restore])).keys = ((MakeScheme keys).run before).keys := by
    rw [Scheme.run, List.foldl_append]
    exact C48_restore_last_save (MakeScheme keys) before after h
  rw [e] at this
  exact this

/-- **C106** The keys of a scheme of the text stay distinct (C48). -/
theorem C106_nodup (fl : FloatLib UInt64) (keys : List Bytes) (hk : keys ≠ []) (hn : keys.Nodup) (ops : List SchemeOp) :
    ∃ o k, Call fl (go% MakeScheme) [] keys (.ok [o, k]) ∧ ∃ o' ks, History fl ops o k o' (.strs ks) ∧ ks.Nodup := by
  have hm := text_MakeScheme (fl := fl) keys hk
  have h0 : (MakeScheme keys).originalNil = false ∧ (MakeScheme keys).keysNil = false := by
    cases keys with
    | nil => exact absurd rfl hk
    | cons => exact ⟨rfl, rfl⟩
  rw [schemeVals_ok h0] at hm
  exact ⟨_, _, hm, _, _, history_run fl ops _ h0, C48_nodup keys hn ops⟩

example : ∀ op ∈ [SchemeOp.add (str "k"), .remove (str "x"), .restore], op matches .save → False := by
  intro op h
  simp only [List.mem_cons, List.not_mem_nil, or_false] at h
  rcases h with rfl | rfl | rfl <;> simp

/-- **C106** `Scheme.Check` of the text says true when the root object has every key (C49). -/
theorem C106_check (fl : FloatLib UInt64) (d : Doc) (ms : List (Member Json)) (o ks : List Bytes) (hd : d.wf) (hr : RootObj d ms)
    (h : ∀ k ∈ ks, k ∈ ms.map Member.key) :
    Call1 fl (go% Scheme.Check) [.strs o, .strs ks, .bytes d.render] (.ok [.strs o, .strs ks, .bool true]) := by
  have := text_Scheme_Check (fl := fl) (json := d.render) ⟨o, ks, false, false⟩ (ok_of ⟨rfl, rfl⟩)
  rw [C49_check_true d ms _ hd hr h] at this
  exact this

/-- **C106 (partial)** `Scheme.Check` of the text in general.  Missing: what C49 misses. -/
theorem C106_check_partial (fl : FloatLib UInt64) (d : Doc) (ms : List (Member Json)) (o ks : List Bytes) (hd : d.wf) (hr : RootObj d ms)
    (hok : ∀ k ∈ ks, k ∉ ms.map Member.key → d.clear [] k) :
    Call1 fl (go% Scheme.Check) [.strs o, .strs ks, .bytes d.render] (.ok [.strs o, .strs ks, .bool (decide (∀ k ∈ ks, k ∈ ms.map Member.key))]) := by
  have := text_Scheme_Check (fl := fl) (json := d.render) ⟨o, ks, false, false⟩ (ok_of ⟨rfl, rfl⟩)
  rw [C49_check_partial d ms _ hd hr hok] at this
  exact this

/-- **C106 (partial)** `Scheme.CheckAbs` of the text.  Missing: what C49 misses. -/
theorem C106_checkAbs_partial (fl : FloatLib UInt64) (d : Doc) (ms : List (Member Json)) (o ks : List Bytes) (hd : d.wf) (hr : RootObj d ms)
    (hn : (ms.map Member.key).Nodup) (hs : ks.Nodup) (hne : d.render ≠ str "{}") :
    ∃ b, Call1 fl (go% Scheme.CheckAbs) [.strs o, .strs ks, .bytes d.render] (.ok [.strs o, .strs ks, .bool b]) ∧
      (b = true ↔ ∀ k, k ∈ ks ↔ k ∈ ms.map Member.key) := by
  have := text_Scheme_CheckAbs (fl := fl) (json := d.render) ⟨o, ks, false, false⟩ (ok_of ⟨rfl, rfl⟩)
  obtain ⟨b, h1, h2⟩ := C49_checkAbs_partial d ms ⟨o, ks, false, false⟩ hd hr hn hs hne
  rw [h1] at this
  exact ⟨b, this, h2⟩

/-- `Check` of the text on a sample document; a case of the hypotheses of `C106_mutateAbs_partial` is in `Verif.Props.Mutate`. -/
example (fl : FloatLib UInt64) : Call1 fl (go% Scheme.Check) [.strs [], .strs [str "b", str "a"], .bytes Sample.flat.render]
    (.ok [.strs [], .strs [str "b", str "a"], .bool true]) :=
  C106_check fl Sample.flat Sample.flatMs [] [str "b", str "a"] (by decide +kernel) ⟨[], rfl⟩ (by decide +kernel)

/-- **C106 (partial)** `Scheme.MutateJsonAbs` of the text writes an object with the keys of the scheme in their order, where
`Get` of the text finds what it finds in the source.  Missing: what C50 misses. -/
theorem C106_mutateAbs_partial (fl : FloatLib UInt64) (hf : ∀ v, (fl.parse v).isSome = true → (Json.lit v).wf) (d : Doc)
    (ms : List (Member Json)) (o ks : List Bytes) (hd : d.wf) (hr : RootObj d ms) (hn : ks.Nodup)
    (hp : ∀ k ∈ ks, k ∈ ms.map Member.key) (hne : [] ∉ ks)
    (hv : ∀ k ∈ ks, ∀ u, d.get? [k] = some u → Jin.Keeps u)
    (ht : ∀ k ∈ ks.dropLast, ∀ u, d.get? [k] = some u → Tame u) :
    ∃ (d' : Doc) (ms' : List (Member Json)), d'.wf ∧ RootObj d' ms' ∧ ms'.map Member.key = ks ∧
      Call1 fl (go% Scheme.MutateJsonAbs) [.strs o, .strs ks, .bytes d.render] (.ok [.strs o, .strs ks, .bytes d'.render, .nil]) ∧
      Call1 fl (go% Scheme.MutateJson) [.strs o, .strs ks, .bytes d.render] (.ok [.strs o, .strs ks, .bytes d'.render, .nil]) ∧
      ∀ k ∈ ks, ∃ r, Call fl (go% Get) [.bytes d'.render] [k] r ∧ Call fl (go% Get) [.bytes d.render] [k] r := by
  obtain ⟨d', ms', h1, h2, h3, h4, -, h5, h6⟩ := C50_mutateAbs_partial (fun v => (fl.parse v).isSome) hf d ms ⟨o, ks, false, false⟩ hd hr hn hp hne hv ht
  have t1 := text_Scheme_MutateJsonAbs (fl := fl) (json := d.render) ⟨o, ks, false, false⟩ (ok_of ⟨rfl, rfl⟩)
  have t2 := text_Scheme_MutateJson (fl := fl) (json := d.render) ⟨o, ks, false, false⟩ (ok_of ⟨rfl, rfl⟩)
  rw [h1] at t1
  have hr' : d'.render ≠ [] := by
    obtain ⟨w, e⟩ := h3
    rw [Doc.render, e]
    simp [Json.render]
  rw [h5, schemeOpt, nilBytes_some hr'] at t2
  refine ⟨d', ms', h2, h3, h4, t1, t2, fun k hk => ⟨_, text_Get fl d'.render [k], ?_⟩⟩
  rw [h6 k hk]
  exact text_Get fl d.render [k]

end Jin.Go
