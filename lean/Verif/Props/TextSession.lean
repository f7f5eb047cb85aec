import Verif.Props.TextLists
import Verif.Props.Session
import Verif.Go.JO
import Verif.Go.Walk
/-!
# Property C127 for the text: a session of calls does to the text what it does to the value
-/

namespace Jin.Go
open Spec

/-- The call of the text that an `Edit` stands for. -/
def callOf (fl : FloatLib UInt64) (o : Edit) (json : Bytes) (r : R (List Val)) : Prop := match o with
  | .set p v => Call fl (go% Set) [.bytes json, .bytes v.render] p r
  | .delete p q => Call fl (go% Delete) [.bytes json] (p ++ [q]) r
  | .add p v => Call fl (go% Add) [.bytes json, .bytes v.render] p r
  | .insert p n v => Call fl (go% Insert) [.bytes json, .int n, .bytes v.render] p r
  | .addKeyValue p k v => Call fl (go% AddKeyValue) [.bytes json, .bytes k, .bytes v.render] p r
  | .setKey p q new => Call fl (go% SetKey) [.bytes json, .bytes new] (p ++ [q]) r

/-- The method of `JO` that an `Edit` stands for, on the bytes of the `JO`. -/
def methodOf (fl : FloatLib UInt64) (o : Edit) (json : Bytes) (r : R (List Val)) : Prop := match o with
  | .set p v => Call fl (go% JO.Set) [.bytes json, .bytes v.render] p r
  | .delete p q => Call fl (go% JO.Delete) [.bytes json] (p ++ [q]) r
  | .add p v => Call fl (go% JO.Add) [.bytes json, .bytes v.render] p r
  | .insert p n v => Call fl (go% JO.Insert) [.bytes json, .int n, .bytes v.render] p r
  | .addKeyValue p k v => Call fl (go% JO.AddKeyValue) [.bytes json, .bytes k, .bytes v.render] p r
  | .setKey p q new => Call fl (go% JO.SetKey) [.bytes json, .bytes new] (p ++ [q]) r

/-- A value that the typed functions write. -/
inductive Typed where
  | int (n : Int)
  | bool (b : Bool)
  | float (x : UInt64)
  | string (s : Bytes)

namespace Typed

def val : Typed → Val
  | .int n => .int n
  | .bool b => .bool b
  | .float x => .float x
  | .string s => .bytes s

def set : Typed → Id
  | .int _ => go% SetInt
  | .bool _ => go% SetBool
  | .float _ => go% SetFloat
  | .string _ => go% SetString

def add : Typed → Id
  | .int _ => go% AddInt
  | .bool _ => go% AddBool
  | .float _ => go% AddFloat
  | .string _ => go% AddString

def insert : Typed → Id
  | .int _ => go% InsertInt
  | .bool _ => go% InsertBool
  | .float _ => go% InsertFloat
  | .string _ => go% InsertString

def addKeyValue : Typed → Id
  | .int _ => go% AddKeyValueInt
  | .bool _ => go% AddKeyValueBool
  | .float _ => go% AddKeyValueFloat
  | .string _ => go% AddKeyValueString

/-- The bytes that are written: decimal digits, `true` or `false`, what `strconv` prints, and for a string what `formatType` makes of it. -/
def text (fl : FloatLib UInt64) : Typed → Bytes
  | .int n => itoa n
  | .bool b => if b then str "true" else str "false"
  | .float x => fl.format x
  | .string s => formatType (fun s => (fl.parse s).isSome) s

end Typed

/-- One step of a session: the function, the method of `JO`, or the typed function for a value with the text of the tree. -/
inductive Step (fl : FloatLib UInt64) : Edit → Bytes → R (List Val) → Prop
  | fn {o json r} : callOf fl o json r → Step fl o json r
  | jo {o json r} : methodOf fl o json r → Step fl o json r
  | set {p v json r} (x : Typed) : x.text fl = v.render → Call fl x.set [.bytes json, x.val] p r → Step fl (.set p v) json r
  | add {p v json r} (x : Typed) : x.text fl = v.render → Call fl x.add [.bytes json, x.val] p r → Step fl (.add p v) json r
  | insert {p v json r} {n : Nat} (x : Typed) : x.text fl = v.render → Call fl x.insert [.bytes json, .int n, x.val] p r → Step fl (.insert p n v) json r
  | addKeyValue {p k v json r} (x : Typed) : k ≠ [] → x.text fl = v.render → Call fl x.addKeyValue [.bytes json, .bytes k, x.val] p r →
      Step fl (.addKeyValue p k v) json r

/-- Calls of the text one after another, each on the text that the former left, with the errors they gave. -/
inductive TextSession (fl : FloatLib UInt64) : Bytes → List (Edit × Option Err) → Bytes → Prop
  | nil {json} : TextSession fl json [] json
  | cons {json json' json'' o er os} : Step fl o json (.ok [.bytes json', errVal er]) → TextSession fl json' os json'' →
      TextSession fl json ((o, er) :: os) json''

/-- A text that shows a value: the text of a scalar without quotes, or a text that `Flatten` makes the text of the container. -/
def ShownBy (fl : FloatLib UInt64) (v : Bytes) : Plain → Prop
  | .lit x => v = x
  | .str x => v = x
  | c => Call1 fl (go% Flatten) [.bytes v] (.ok [.bytes c.text])

variable {fl : FloatLib UInt64}

theorem callOf_run (o : Edit) (json : Bytes) : callOf fl o json (mutVals (o.run json)) := by
  cases o with
  | set p v => exact text_Set fl json p (some v.render)
  | delete p q => exact text_Delete fl json _
  | add p v => exact text_Add fl json p (some v.render)
  | insert p n v => exact text_Insert fl json p n (some v.render)
  | addKeyValue p k v => exact text_AddKeyValue fl json p k (some v.render)
  | setKey p q new => exact text_SetKey fl json _ new

theorem callOf_unique {o : Edit} {json : Bytes} {r s : R (List Val)} (h : callOf fl o json r) (h' : callOf fl o json s) : r = s := by
  cases o <;> exact Call.unique h h'

theorem methodOf_run (o : Edit) (json : Bytes) : methodOf fl o json (mutVals (o.run json)) := by
  cases o with
  | set p v => exact text_JO_Set ⟨json⟩ v.render p
  | delete p q => exact text_JO_Delete ⟨json⟩ _
  | add p v => exact text_JO_Add ⟨json⟩ v.render p
  | insert p n v => exact text_JO_Insert ⟨json⟩ n v.render p
  | addKeyValue p k v => exact text_JO_AddKeyValue ⟨json⟩ k (some v.render) p
  | setKey p q new => exact text_JO_SetKey ⟨json⟩ new _

theorem methodOf_unique {o : Edit} {json : Bytes} {r s : R (List Val)} (h : methodOf fl o json r) (h' : methodOf fl o json s) : r = s := by
  cases o <;> exact Call.unique h h'

theorem typed_bool (b : Bool) : (Typed.bool b).text fl = boolText b := by
  cases b <;> simp [Typed.text, boolText] <;> decide +kernel

/-- **C127** A step does to the text what the function does. -/
theorem step_run {o : Edit} {json : Bytes} {r : R (List Val)} (h : Step fl o json r) : r = mutVals (o.run json) := by
  cases h with
  | fn h => exact callOf_unique h (callOf_run o json)
  | jo h => exact methodOf_unique h (methodOf_run o json)
  | set x hx h =>
    rw [Edit.run, ← hx]
    cases x with
    | int n => exact h.unique (text_SetInt fl json _ n)
    | bool b => rw [typed_bool]; exact h.unique (text_SetBool fl json _ b)
    | float x => exact h.unique (text_SetFloat fl json _ x)
    | string s => exact h.unique (text_SetString fl json _ s)
  | add x hx h =>
    rw [Edit.run, ← hx]
    cases x with
    | int n => exact h.unique (text_AddInt fl json _ n)
    | bool b => rw [typed_bool]; exact h.unique (text_AddBool fl json _ b)
    | float x => exact h.unique (text_AddFloat fl json _ x)
    | string s => exact h.unique (text_AddString fl json _ s)
  | insert x hx h =>
    rename_i v n
    have hn : ¬ (n : Int) < 0 := by omega
    rw [Edit.run, ← hx]
    cases x with
    | int m => rw [h.unique (text_InsertInt fl json _ n m), InsertInt, insertText, if_neg hn]; rfl
    | bool b => rw [typed_bool, h.unique (text_InsertBool fl json _ n b), InsertBool, insertText, if_neg hn]; rfl
    | float x => rw [h.unique (text_InsertFloat fl json _ n x), InsertFloat, insertText, if_neg hn]; rfl
    | string s => rw [h.unique (text_InsertString fl json _ n s), if_neg hn, InsertString, if_neg hn]; rfl
  | addKeyValue x hk hx h =>
    rename_i k v
    have hk : ¬ (k.length == 0) = true := by simpa using hk
    rw [Edit.run, ← hx]
    cases x with
    | int n => rw [h.unique (text_AddKeyValueInt fl json _ k n), AddKeyValueInt, addKV, if_neg hk]; rfl
    | bool b => rw [typed_bool, h.unique (text_AddKeyValueBool fl json _ k b), AddKeyValueBool, addKV, if_neg hk]; rfl
    | float x => rw [h.unique (text_AddKeyValueFloat fl json _ k x), AddKeyValueFloat, addKV, if_neg hk]; rfl
    | string s => rw [h.unique (text_AddKeyValueString fl json _ k s), if_neg hk, AddKeyValueString, if_neg hk]; rfl

theorem session_text {json json' : Bytes} {l : List (Edit × Option Err)} (h : Session json l json') : TextSession fl json l json' := by
  induction h with
  | nil => exact .nil
  | cons h _ ih =>
    refine .cons (.fn ?_) ih
    rename_i json _ _ o er _ _
    have hc := callOf_run (fl := fl) o json
    rw [h] at hc
    cases er <;> exact hc

theorem text_session {json json' : Bytes} {l : List (Edit × Option Err)} (h : TextSession fl json l json') : Session json l json' := by
  induction h with
  | nil => exact .nil
  | cons h _ ih =>
    refine .cons ?_ ih
    rename_i json json' _ o er os _
    have e := (step_run h).symm
    rcases ho : o.run json with ⟨b, _ | x⟩ | _ <;> rw [ho] at e <;> cases er <;> simp [mutVals, errVal] at e <;> simp [e]

theorem shown {v : Bytes} {c : Plain} (h : c.shownBy v) : ShownBy fl v c := by
  have ht := text_Flatten fl v
  cases c with
  | lit x => exact h
  | str x => exact h
  | arr es => rw [show Flatten v = _ from h] at ht; exact ht
  | obj ms => rw [show Flatten v = _ from h] at ht; exact ht

/-- **C127** After a session of calls of the text that apply, of functions, methods of `JO` and typed functions in any mix, the text is a document whose value is what the calls do to the value of the
first document; only `AddKeyValue` and `SetKey` can have failed. -/
theorem C127_text {l : List (Edit × Option Err)} {d : Doc} {json : Bytes} (hd : d.wf) (hs : TextSession fl d.render l json)
    (hv : Valid d.root.plain l) :
    (∃ d' : Doc, json = d'.render ∧ d'.wf ∧ follow d.root.plain l = some d'.root.plain) ∧ ∀ x ∈ l, x.2 ≠ none → x.1.looks :=
  C127_session hd (text_session hs) hv

/-- **C127** What is read of the text after the session. -/
theorem C127_text_read {l : List (Edit × Option Err)} {d : Doc} {json : Bytes} {t : Plain} (hd : d.wf) (hs : TextSession fl d.render l json)
    (hv : Valid d.root.plain l) (ht : follow d.root.plain l = some t) :
    Call1 fl (go% Flatten) [.bytes json] (.ok [.bytes t.text]) ∧
    (∀ p c, p ≠ [] → t.get? p = some c → ∃ v, Call fl (go% Get) [.bytes json] p (.ok [.bytes v, .nil]) ∧ ShownBy fl v c) ∧
    (∀ p ms, t.get? p = some (.obj ms) → ms ≠ [] → Keys fl json p (ms.map (·.1))) ∧
    (∀ p es, t.get? p = some (.arr es) → es ≠ [] → ∃ vs, Elements fl json p vs ∧ vs.length = es.length ∧
      ∀ (i : Nat) (v : Bytes) (c : Plain), vs[i]? = some v → es[i]? = some c → ShownBy fl v c) := by
  obtain ⟨h1, h2, h3, h4⟩ := C127_read hd (text_session hs) hv ht
  refine ⟨h1 ▸ text_Flatten fl json, fun p c hp hc => ?_, fun p ms hc hne => keys_intro (h3 p ms hc hne), fun p es hc hne => ?_⟩
  · obtain ⟨v, a, b⟩ := h2 p c hp hc
    exact ⟨v, (text_Get fl json p).one a, shown b⟩
  · obtain ⟨vs, a, b, c⟩ := h4 p es hc hne
    exact ⟨vs, elements_intro a, b, fun i v x h h' => shown (c i v x h h')⟩

/-- **C127** After the session, `Walk` of the text hands out the scalars of the value, each with its path and the last entry of it, in order. -/
theorem C127_text_walk {l : List (Edit × Option Err)} {d : Doc} {json : Bytes} {t : Plain} (hd : d.wf) (hs : TextSession fl d.render l json)
    (hv : Valid d.root.plain l) (ht : follow d.root.plain l = some t) (hl : (json.length : Int) ≤ 9223372036854775807)
    (hc : (∃ es, t = .arr es) ∨ ∃ ms, t = .obj ms) (hw : t.walkable) :
    CallCb fl (cb3 fun (u : List (Bytes × Bytes × List Bytes)) k v p => .ret (u ++ [(k, v, p)]) true none) (go% Walk) [.bytes json, .nil] []
      (.ok ((t.leaves []).map fun l => (l.1.getLast?.getD [], l.2, l.1), [.nil])) := by
  have h := text_Walk fl json (fun (u : List (Bytes × Bytes × List Bytes)) k v p => .ret (u ++ [(k, v, p)]) true none) []
  rw [C127_walk hd (text_session hs) hv ht hl hc hw] at h
  exact h

/-- **C127** On a document that ends with a bracket, calls of the text that apply go through to the end. -/
theorem C127_text_total {ops : List Edit} {d : Doc} (hd : d.wf) (ht : d.trail = []) (hk : d.root.kind ≠ .scalar) (hv : ValidAll d.root.plain ops) :
    ∃ l json, l.map Prod.fst = ops ∧ TextSession fl d.render l json ∧ Valid d.root.plain l := by
  obtain ⟨l, json, a, b, c⟩ := C127_total hd ht hk hv
  exact ⟨l, json, a, session_text b, c⟩

/-- A case of the hypotheses: the session on the sample document. -/
example : ∃ json, TextSession fl Sample.doc.render Sample.edits json ∧ Call1 fl (go% Flatten) [.bytes json]
    (.ok [.bytes (str "{\"z\":1,\"b\\\"]\":[5,{\"k\":null},[],[]],\"a\":2,\"o\":{\"p\":{\"q\":true},\"r\":-1.5e3,\"s\":\"é\"}}")]) := by
  have hs := session_text (fl := fl) Sample.session
  obtain ⟨⟨d', -, -, e⟩, -⟩ := C127_text Sample.doc_wf hs Sample.edits_valid
  have h := (C127_text_read Sample.doc_wf hs Sample.edits_valid e).1
  have ht := Sample.edits_follow
  rw [e, Option.map_some, Option.some_inj] at ht
  rw [ht] at h
  exact ⟨_, hs, h⟩

/-- The other kinds of steps. -/
example (json : Bytes) (p : List Text) : (∃ r, Step fl (.set p (.lit (str "-5"))) json r) ∧ (∃ r, Step fl (.add p (.lit (str "true"))) json r) ∧
    ∃ r, Step fl (.delete p (str "0")) json r :=
  ⟨⟨_, .set (.int (-5)) (show itoa (-5) = str "-5" by decide +kernel) (text_SetInt fl json p (-5))⟩, ⟨_, .add (.bool true) rfl (text_AddBool fl json p true)⟩,
    ⟨_, .jo (methodOf_run (.delete p (str "0")) json)⟩⟩

end Jin.Go
