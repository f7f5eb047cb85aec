import Verif.Props.TextUtf8
import Verif.Props.TextParser
import Verif.Props.Utf8Parser
/-!
# Property C122: UTF-8 in and out of the parsers of the text

Programs that call the methods of `Parser` in the text of /repo (`TRun`, `Verif.Go.ParserAll`), with `GetNew` left out (C117).
-/

namespace Jin.Go
open Spec

/-- The texts and keys that a call is given are UTF-8, and it is not `GetNew`.  Paths may be any bytes. -/
def TCall.utf8 : TCall → Prop
  | .base (.parse text) => Utf8 text
  | .base (.set _ v _) => Utf8 v
  | .base (.setKey _ k _) => Utf8 k
  | .base (.addKeyValue _ k v _) => Utf8 k ∧ Utf8 v
  | .base (.add _ v _) => Utf8 v
  | .base (.insert _ _ v _) => Utf8 v
  | .base (.delete ..) => True
  | .base (.get ..) => True
  | .base (.getNew ..) => False
  | .base (.tree ..) => False
  | .typed _ m _ => ∀ v ∈ m.call.2, v.utf8
  | .read .. => True
  | .json .. => True
  | .tree .. => True

/-- The texts in an answer are UTF-8. -/
def TAns.utf8 : TAns → Prop
  | .base (.did text _) => Utf8 text
  | .base (.read (.ok b)) => Utf8 b
  | .base _ => True
  | .value v => v.utf8
  | .error v _ => v.utf8

/-- What a method does keeps UTF-8. -/
def KeepsUtf8 (f : Parser → PRes) : Prop := ∀ p q er, p.AllUtf8 → f p = .done q er → q.AllUtf8

theorem TMut.keeps (fl : FloatLib UInt64) (hfl : ∀ x, Utf8 (fl.format x)) (m : TMut) (path : List Bytes) (hm : ∀ v ∈ m.call.2, v.utf8) :
    KeepsUtf8 fun P => m.val fl P path := by
  intro p q er hp h
  have guardK : ∀ {k v : Bytes}, Utf8 k → Utf8 v → (if k.length == 0 then PRes.done p (some .nullKey) else p.AddKeyValue k v path) = .done q er → q.AllUtf8 := by
    intro k v hk hv h
    split at h
    · cases h; exact hp
    · exact C116_parserAddKeyValue hp hk hv h
  have guardI : ∀ {i : Int} {v : Bytes}, Utf8 v → (if i < 0 then PRes.done p (some .indexOutOfRange) else p.Insert i v path) = .done q er → q.AllUtf8 := by
    intro i v hv h
    split at h
    · cases h; exact hp
    · exact C116_parserInsert hp hv h
  cases m with
  | setString v =>
    have hv : Utf8 v := hm (.bytes v) (by simp [TMut.call])
    have hq : Utf8 (quote v) := Utf8.cons (by decide) (hv.append (Utf8.one (by decide)))
    simp only [TMut.val, Parser.SetString] at h
    split at h
    · split at h
      · exact C116_parserSet hp hq h
      · exact C116_parserSet hp hv h
    · cases h
  | setInt n => exact C116_parserSet hp (itoa_utf8 n) h
  | setFloat x => exact C116_parserSet hp (hfl x) h
  | setBool b => exact C116_parserSet hp (boolText_utf8 b) h
  | addKeyValueString k v => exact guardK (hm (.bytes k) (by simp [TMut.call])) (formatType_utf8 (hm (.bytes v) (by simp [TMut.call]))) h
  | addKeyValueInt k n => exact guardK (hm (.bytes k) (by simp [TMut.call])) (itoa_utf8 n) h
  | addKeyValueFloat k x => exact guardK (hm (.bytes k) (by simp [TMut.call])) (hfl x) h
  | addKeyValueBool k b => exact guardK (hm (.bytes k) (by simp [TMut.call])) (boolText_utf8 b) h
  | addString v => exact C116_parserAdd hp (formatType_utf8 (hm (.bytes v) (by simp [TMut.call]))) h
  | addInt n => exact C116_parserAdd hp (itoa_utf8 n) h
  | addFloat x => exact C116_parserAdd hp (hfl x) h
  | addBool b => exact C116_parserAdd hp (boolText_utf8 b) h
  | insertString i v => exact guardI (formatType_utf8 (hm (.bytes v) (by simp [TMut.call]))) h
  | insertInt i n => exact guardI (itoa_utf8 n) h
  | insertFloat i x => exact guardI (hfl x) h
  | insertBool i b => exact guardI (boolText_utf8 b) h

theorem valMut_utf8 {vs : List Parser} {k : Nat} {f : Parser → PRes} (hs : ∀ P ∈ vs, P.AllUtf8) (hf : KeepsUtf8 f) :
    (∀ P ∈ (valMut vs k f).1, P.AllUtf8) ∧ (TAns.base (valMut vs k f).2).utf8 := by
  unfold valMut
  cases hk : vs[k]? with
  | none => exact ⟨hs, trivial⟩
  | some p =>
    have hp := hs p (List.mem_of_getElem? hk)
    dsimp only
    cases hr : f p with
    | panic => exact ⟨hs, trivial⟩
    | done q er =>
      have hq := hf p q er hp hr
      refine ⟨fun P hP => ?_, hq.1⟩
      rcases List.mem_or_eq_of_mem_set hP with h | rfl
      · exact hs P h
      · exact hq

theorem map_val {α : Type} {o : Out α} {f : α → Val} {v : Val} (h : o.map f = .ok v) : ∃ a, v = f a := by
  cases o <;> cases h
  exact ⟨_, rfl⟩

theorem TGet.val_utf8 (fl : FloatLib UInt64) (g : TGet) {P : Parser} (hp : P.AllUtf8) {path : List Bytes} {v : Val} (h : g.val fl P path = .ok v) : v.utf8 := by
  cases g with
  | string =>
    simp only [TGet.val, Parser.GetString] at h
    cases hg : P.Get path with
    | ok w => rw [hg] at h; cases h; exact (C116_parserGet hp).1 w hg
    | err e => rw [hg] at h; cases h
    | panic => rw [hg] at h; cases h
  | strings =>
    simp only [TGet.val] at h
    cases hg : P.GetStringArray path with
    | ok w => rw [hg] at h; cases h; exact (C116_parserGet hp).2 w hg
    | err e => rw [hg] at h; cases h
    | panic => rw [hg] at h; cases h
  | _ =>
    obtain ⟨a, rfl⟩ := map_val h
    trivial

/-- One call keeps UTF-8 in every parser, and answers with UTF-8. -/
theorem tVal_utf8 (fl : FloatLib UInt64) (hfl : ∀ x, Utf8 (fl.format x)) {vs : List Parser} (hs : ∀ P ∈ vs, P.AllUtf8) (c : TCall) (hc : c.utf8) :
    (∀ P ∈ (tVal fl vs c).1, P.AllUtf8) ∧ (tVal fl vs c).2.utf8 := by
  cases c with
  | base c =>
    cases c with
    | parse json =>
      simp only [tVal, valStep]
      cases hp : Parse json with
      | panic => exact ⟨hs, trivial⟩
      | err e => exact ⟨hs, trivial⟩
      | ok p =>
        refine ⟨fun P hP => ?_, trivial⟩
        rcases List.mem_append.1 hP with h | h
        · exact hs P h
        · rw [List.mem_singleton.1 h]; exact C116_parse hc hp
    | set k v path => exact valMut_utf8 hs fun p q er hp h => C116_parserSet hp hc h
    | setKey k key path => exact valMut_utf8 hs fun p q er hp h => C116_parserSetKey hp hc h
    | delete k path => exact valMut_utf8 hs fun p q er hp h => C116_parserDelete hp h
    | addKeyValue k key v path => exact valMut_utf8 hs fun p q er hp h => C116_parserAddKeyValue hp hc.1 hc.2 h
    | add k v path => exact valMut_utf8 hs fun p q er hp h => C116_parserAdd hp hc h
    | insert k i v path => exact valMut_utf8 hs fun p q er hp h => C116_parserInsert hp hc h
    | get k path =>
      simp only [tVal, valStep, valLook]
      cases hk : vs[k]? with
      | none => exact ⟨hs, trivial⟩
      | some p =>
        have hp := hs p (List.mem_of_getElem? hk)
        dsimp only
        cases hg : p.Get path with
        | ok w => exact ⟨hs, (C116_parserGet hp).1 w hg⟩
        | err e => exact ⟨hs, trivial⟩
        | panic => exact ⟨hs, trivial⟩
    | getNew k path => exact hc.elim
    | tree k pad b => exact hc.elim
  | typed k m path => exact valMut_utf8 hs (TMut.keeps fl hfl m path hc)
  | read k g path =>
    simp only [tVal]
    cases hk : vs[k]? with
    | none => exact ⟨hs, trivial⟩
    | some P =>
      dsimp only
      cases hg : g.val fl P path with
      | ok v => exact ⟨hs, TGet.val_utf8 fl g (hs P (List.mem_of_getElem? hk)) hg⟩
      | err e => exact ⟨hs, by cases g <;> first | trivial | exact Utf8.nil⟩
      | panic => exact ⟨hs, trivial⟩
  | json k =>
    simp only [tVal]
    cases hk : vs[k]? with
    | none => exact ⟨hs, trivial⟩
    | some P => exact ⟨hs, (hs P (List.mem_of_getElem? hk)).1⟩
  | tree k full =>
    simp only [tVal]
    cases hk : vs[k]? with
    | none => exact ⟨hs, trivial⟩
    | some P =>
      refine ⟨hs, ?_⟩
      have h := C116_tree (hs P (List.mem_of_getElem? hk)) (pad := pad6) fun t c hc => (List.mem_replicate.1 hc).2
      cases full
      · exact h.1
      · exact h.2

theorem tVals_utf8 (fl : FloatLib UInt64) (hfl : ∀ x, Utf8 (fl.format x)) : ∀ (calls : List TCall) {vs : List Parser}, (∀ P ∈ vs, P.AllUtf8) →
    (∀ c ∈ calls, c.utf8) → (∀ a ∈ (tVals fl vs calls).1, a.utf8) ∧ ∀ P ∈ (tVals fl vs calls).2, P.AllUtf8
  | [], vs, hs, _ => ⟨by simp [tVals], hs⟩
  | c :: cs, vs, hs, hc => by
    obtain ⟨h1, h2⟩ := tVal_utf8 fl hfl hs c (hc c (List.mem_cons_self ..))
    obtain ⟨h3, h4⟩ := tVals_utf8 fl hfl cs h1 fun x hx => hc x (List.mem_cons_of_mem _ hx)
    unfold tVals
    split
    · exact ⟨fun a ha => by rw [List.mem_singleton.1 ha]; exact h2, h1⟩
    · refine ⟨fun a ha => ?_, h4⟩
      rcases List.mem_cons.1 ha with rfl | ha
      · exact h2
      · exact h3 a ha

theorem no_tree {calls : List TCall} (h : ∀ c ∈ calls, c.utf8) : ∀ c ∈ calls, ∀ k pad b, c ≠ .base (.tree k pad b) := by
  rintro c hc k pad b rfl
  exact h _ hc

/-- **C122** A program on parsers of the text that gives them UTF-8 only, whatever its paths, is answered with UTF-8 only; `FormatFloat`
is assumed to give UTF-8. -/
theorem C122_answers (fl : FloatLib UInt64) (hfl : ∀ x, Utf8 (fl.format x)) (calls : List TCall) (hc : ∀ c ∈ calls, c.utf8) (answers : List TAns) (w : WorldP)
    (h : TRun fl ⟨[], []⟩ calls answers w) : ∀ a ∈ answers, a.utf8 := by
  have e := (C108_sessions fl calls (no_tree hc) answers).1 ⟨w, h⟩
  rw [e]
  exact (tVals_utf8 fl hfl calls (by simp) hc).1

/-- **C122** … and the text of every parser that it leaves is UTF-8. -/
theorem C122_texts (fl : FloatLib UInt64) (hfl : ∀ x, Utf8 (fl.format x)) (calls : List TCall) (hc : ∀ c ∈ calls, c.utf8) (answers : List TAns) (w : WorldP)
    (h : TRun fl ⟨[], []⟩ calls answers w) : ∀ p ∈ w.parsers, Utf8 p.json := by
  obtain ⟨h1, h2⟩ := C108_reads fl calls (no_tree hc) answers w h
  intro p hp
  obtain ⟨k, hk⟩ := List.mem_iff_getElem?.1 hp
  have hl : k < (tVals fl [] calls).2.length := by
    rw [← h1]
    exact (List.getElem?_eq_some_iff.1 hk).1
  have hP := List.getElem?_eq_getElem hl
  rw [(h2 k p _ hk hP).1]
  exact ((tVals_utf8 fl hfl calls (by simp) hc).2 _ (List.mem_of_getElem? hP)).1

/-- **C122** A program of this kind always has a run: the two theorems above are about every such program. -/
theorem C122_runs (fl : FloatLib UInt64) (calls : List TCall) (hc : ∀ c ∈ calls, c.utf8) : ∃ answers w, TRun fl ⟨[], []⟩ calls answers w := by
  obtain ⟨w, h⟩ := (C108_sessions fl calls (no_tree hc) _).2 rfl
  exact ⟨_, w, h⟩

/-- Calls that are not typed do not ask `strconv`. -/
theorem tVals_base (fl fl' : FloatLib UInt64) : ∀ (cs : List PtrCall) (vs : List Parser), tVals fl vs (cs.map .base) = tVals fl' vs (cs.map .base)
  | [], _ => rfl
  | c :: cs, vs => by
    simp only [List.map_cons, tVals]
    rw [tVals_base fl fl' cs]
    rfl

/-- The third answer is these bytes. -/
def thirdIs (b : Bytes) : List TAns → Bool
  | [_, _, .base (.read (.ok x))] => x == b
  | _ => false

/-- **C122** `GetNew` must be left out: given ASCII only, a program that sets a container to `~` gets an answer that is not UTF-8 (C117). -/
theorem C122_getNew_fails (fl : FloatLib UInt64) : ∃ answers w, TRun fl ⟨[], []⟩
    [.base (.parse (str "{\"a\":[1,2]}")), .base (.set 0 (str "~") [str "a"]), .base (.getNew 0 [str "a"])] answers w ∧ ∃ a ∈ answers, ¬ a.utf8 := by
  obtain ⟨w, h⟩ := (C108_sessions fl [.base (.parse (str "{\"a\":[1,2]}")), .base (.set 0 (str "~") [str "a"]), .base (.getNew 0 [str "a"])]
    (by rintro c hc k pad b rfl; simp at hc) _).2 rfl
  refine ⟨_, w, h, ?_⟩
  have e : thirdIs [126, 44, 128] (tVals fl [] [.base (.parse (str "{\"a\":[1,2]}")), .base (.set 0 (str "~") [str "a"]), .base (.getNew 0 [str "a"])]).1 = true := by
    have h := tVals_base fl ⟨fun _ => none, fun _ => []⟩ [.parse (str "{\"a\":[1,2]}"), .set 0 (str "~") [str "a"], .getNew 0 [str "a"]] []
    simp only [List.map_cons, List.map_nil] at h
    rw [h]
    decide +kernel
  generalize (tVals fl [] _).1 = l at e
  unfold thirdIs at e
  split at e
  · rename_i x
    refine ⟨.base (.read (.ok x)), by simp, ?_⟩
    rw [eq_of_beq e]
    exact not_utf8
  · cases e

/-- Letters of two and three bytes, a path that is not UTF-8, typed calls and a drawing. -/
def utf8Demo : List TCall :=
  [.base (.parse (str "{\"é\":[\"日本\", 1]}")), .typed 0 (.addString (str "ñ")) [str "é"], .base (.delete 0 [[195]]), .read 0 .string [str "é", str "2"],
   .typed 0 (.addKeyValueString (str "ö") (str "ü")) [], .json 0, .tree 0 true]

/-- It meets the hypotheses … -/
example : ∀ c ∈ utf8Demo, c.utf8 := by
  have u : ∀ s : String, str s = s.toList.flatMap String.utf8EncodeChar → Utf8 (str s) := fun s h => ⟨s.toList, h⟩
  intro c hc
  simp only [utf8Demo, List.mem_cons, List.not_mem_nil, or_false] at hc
  rcases hc with rfl | rfl | rfl | rfl | rfl | rfl | rfl
  · exact u _ (by decide +kernel)
  · intro v hv
    rw [List.mem_singleton.1 hv]
    exact u _ (by decide +kernel)
  · trivial
  · trivial
  · intro v hv
    rcases List.mem_cons.1 hv with rfl | hv
    · exact u _ (by decide +kernel)
    · rw [List.mem_singleton.1 hv]
      exact u _ (by decide +kernel)
  · trivial
  · trivial

/-- … and these are its answers. -/
example : (tVals ⟨fun _ => none, fun x => itoa x.toNat⟩ [] utf8Demo).1.map TAns.show =
    [str "parsed", str "{\"é\":[\"日本\", 1,\"ñ\"]}", str "error, {\"é\":[\"日本\", 1,\"ñ\"]}", str "ñ", str "{\"é\":[\"日本\", 1,\"ñ\"],\"ö\":\"ü\"}",
     str "{\"é\":[\"日本\", 1,\"ñ\"],\"ö\":\"ü\"}",
     str "─ é      : [\"日本\", 1,\"ñ\"]\n\t└  0      : \"日本\"\n\t└  1      :  1\n\t└  2      : \"ñ\"\n─ ö      : \"ü\"\n"] := by
  decide +kernel

end Jin.Go
