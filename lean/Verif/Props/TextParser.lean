import Verif.Go.ParserAll
import Verif.Props.ParserPtr
/-!
# Properties C107 and on: parsers of the text

The statements speak of the text of /repo (`Verif.Go.Source`): `Call`, `Call1` and `TextRun` run it on one memory of nodes.
-/

namespace Jin.Go

/-! ### C107 -/

/-- **C107** A program that parses texts and calls the methods of its parsers, run on the text of /repo, comes to an end
(or to a panic); what it sees is what parsers that are values of their own answer. -/
theorem C107_sessions (fl : FloatLib UInt64) (calls : List PtrCall) (hc : ∀ c ∈ calls, ∀ k pad b, c ≠ .tree k pad b) (answers : List PAns) :
    (∃ w, TextRun fl ⟨[], []⟩ calls answers w) ↔ answers = valRun [] calls := by
  obtain ⟨w, h1, -⟩ := text_run (fl := fl) WRel.empty (fun _ _ h => by simp at h) calls hc
  refine ⟨fun ⟨w', h⟩ => (h.unique h1).1, fun h => ?_⟩
  subst h
  exact ⟨w, h1⟩

/-- **C107** After a program on the text, the nodes of its parsers in the memory of the text are separate trees (C97). -/
theorem C107_trees (fl : FloatLib UInt64) (calls : List PtrCall) (hc : ∀ c ∈ calls, ∀ k pad b, c ≠ .tree k pad b) (answers : List PAns) (w : WorldP)
    (h : TextRun fl ⟨[], []⟩ calls answers w) (i : Nat) (p : ParserP) (hp : w.parsers[i]? = some p) :
    (∀ n, w.heap.Reach p.core n → ∃ r, w.heap[n]? = some r ∧
      (∀ d ∈ r.down, (∃ rd, w.heap[d]? = some rd ∧ rd.up = some n) ∧ ¬ w.heap.Reach d n) ∧
      r.down.Pairwise fun d e => ∀ x, w.heap.Reach d x → ¬ w.heap.Reach e x) ∧
    (∀ j q, j ≠ i → w.parsers[j]? = some q → ∀ n, w.heap.Reach p.core n → ¬ w.heap.Reach q.core n) := by
  obtain ⟨w', h1, -, L, vs, hL, -⟩ := text_run (fl := fl) WRel.empty (fun _ _ h => by simp at h) calls hc
  obtain ⟨-, rfl⟩ := h.unique h1
  exact hL.trees i p hp

/-- **C107** After a program on the text without a panic, `Get` and `GetNew` of the text on each of its parsers give what the
parser that is a value gives, and the parser holds its text. -/
theorem C107_reads (fl : FloatLib UInt64) (calls : List PtrCall) (hc : ∀ c ∈ calls, ∀ k pad b, c ≠ .tree k pad b) (answers : List PAns) (w : WorldP)
    (h : TextRun fl ⟨[], []⟩ calls answers w) (hn : ∀ a ∈ answers, a.isPanic = false) :
    w.parsers.length = (valAfter [] calls).length ∧ ∀ (k : Nat) (p : ParserP) (P : Parser), w.parsers[k]? = some p → (valAfter [] calls)[k]? = some P →
      p.json = P.json ∧ ∀ path,
      Call fl (go% Parser.Get) [.heap w.heap, .ptr p.core, .bytes p.json] path (match P.Get path with
        | .ok v => .ok [.heap w.heap, .ptr p.core, .bytes p.json, .bytes v, .nil]
        | .err e => .ok [.heap w.heap, .ptr p.core, .bytes p.json, .nil, .err e]
        | .panic => .panic) ∧
      ∀ v, P.GetNew path = .ok v → v ≠ [] →
        Call fl (go% Parser.GetNew) [.heap w.heap, .ptr p.core, .bytes p.json] path (.ok [.heap w.heap, .ptr p.core, .bytes p.json, .bytes v]) := by
  obtain ⟨w', h1, h2, L, vs, hL, hvs⟩ := text_run (fl := fl) WRel.empty (fun _ _ h => by simp at h) calls hc
  obtain ⟨rfl, rfl⟩ := h.unique h1
  rw [← hvs hn]
  refine ⟨by rw [hL.left, hL.right, List.length_map, List.length_map], fun k p P hp hP => ?_⟩
  rcases hL.slot k with ⟨-, k2, -⟩ | ⟨s, k1, k2, k3⟩
  · rw [k2] at hp; cases hp
  rw [k2] at hp
  rw [k3] at hP
  cases hp
  cases hP
  have hs := hL.rep k s k1
  have hlt : s.p.core < w.heap.length := by rw [hs.core]; exact hs.holds.here.lt _ (ptr_mem s.t)
  refine ⟨hs.json, fun path => ⟨?_, fun v hv hne => ?_⟩⟩
  · have := text_Parser_Get fl h2 s.p hlt path
    rwa [get_sim hs] at this
  · have := text_Parser_GetNew fl h2 s.p hs path
    cases hw : s.P.core.walk path with
    | ok n => rwa [hw, hv] at this
    | err e => rw [Parser.GetNew, hw] at hv; cases hv; exact absurd rfl hne
    | panic => rw [Parser.GetNew, hw] at hv; cases hv

/-- The program of C96 without the drawing: what the text answers. -/
example (fl : FloatLib UInt64) : ∃ answers w, TextRun fl ⟨[], []⟩ ptrDemo.dropLast answers w ∧ answers.map PAns.show =
    [str "parsed", str "parsed", str "{\"a\":[1,{\"b\":[7,8]}],\"c\":3}", str "{\"a\":[9,1,{\"b\":2}],\"c\":3}",
     str "{\"a\":[1,{\"b\":[7,8]}]}", str "{\"a\":[9,1,{\"b\":2}],\"d\":3}", str "{\"a\":[1,{\"b\":[7,8]}],\"kk\":{\"x\":[]}}",
     str "{\"a\":[9,1,{\"b\":2},true],\"d\":3}", str "error", str "[9,1,{\"b\":2},true]",
     str "{\"a\":[1,{\"b\":[[7,8]]}],\"kk\":{\"0\":{\"x\":[]}}}", str "[1,{\"b\":2},9,true]", str "no parser"] := by
  obtain ⟨w, h⟩ := (C107_sessions fl ptrDemo.dropLast (by intro c hc k pad b e; subst e; simp [ptrDemo] at hc) _).2 rfl
  exact ⟨_, w, h, by decide +kernel⟩

/-! ### C108 -/

/-- **C108** The same with every method of `Parser`: the typed ones give what the model of each gives, `Tree` and `TreeFull` draw the tree of the
value.  (`hc` leaves out the drawings of the programs of C96, which have the padding as a parameter.) -/
theorem C108_sessions (fl : FloatLib UInt64) (calls : List TCall) (hc : ∀ c ∈ calls, ∀ k pad b, c ≠ .base (.tree k pad b)) (answers : List TAns) :
    (∃ w, TRun fl ⟨[], []⟩ calls answers w) ↔ answers = (tVals fl [] calls).1 := by
  obtain ⟨w, L, h1, -⟩ := t_run (fl := fl) WRel.empty (fun _ _ h => by simp at h) calls hc
  refine ⟨fun ⟨w', h⟩ => (h.unique h1).1, fun h => ?_⟩
  subst h
  exact ⟨w, h1⟩

/-- **C108** … and each parser that the program leaves holds the text of its value, and reads as it. -/
theorem C108_reads (fl : FloatLib UInt64) (calls : List TCall) (hc : ∀ c ∈ calls, ∀ k pad b, c ≠ .base (.tree k pad b)) (answers : List TAns) (w : WorldP)
    (h : TRun fl ⟨[], []⟩ calls answers w) :
    w.parsers.length = (tVals fl [] calls).2.length ∧ ∀ (k : Nat) (p : ParserP) (P : Parser), w.parsers[k]? = some p → (tVals fl [] calls).2[k]? = some P →
      p.json = P.json ∧ ∀ (g : TGet) (path : List Bytes),
      Call fl g.call [.heap w.heap, .ptr p.core, .bytes p.json] path (match g.val fl P path with
        | .ok v => .ok [.heap w.heap, .ptr p.core, .bytes p.json, v, .nil]
        | .err e => .ok [.heap w.heap, .ptr p.core, .bytes p.json, g.dflt, .err e]
        | .panic => .panic) := by
  obtain ⟨w', L, h1, h2, hL⟩ := t_run (fl := fl) WRel.empty (fun _ _ h => by simp at h) calls hc
  obtain ⟨rfl, rfl⟩ := h.unique h1
  refine ⟨by rw [hL.left, hL.right, List.length_map, List.length_map], fun k p P hp hP => ?_⟩
  rcases hL.slot k with ⟨-, k2, -⟩ | ⟨s, k1, k2, k3⟩
  · rw [k2] at hp; cases hp
  rw [k2] at hp
  rw [k3] at hP
  cases hp
  cases hP
  have hs := hL.rep k s k1
  have hlt : s.p.core < w.heap.length := by rw [hs.core]; exact hs.holds.here.lt _ (ptr_mem s.t)
  refine ⟨hs.json, fun g path => ?_⟩
  have := TGet.text fl g h2 hlt (get_sim hs path)
  revert this
  cases g.val fl s.P path <;> exact id

/-- A program with typed calls. -/
def typedDemo : List TCall :=
  [.base (.parse (str "{\"a\":[1, 22 ,3],\"b\":{\"c\":-7}}")), .typed 0 (.setInt 9) [str "b", str "c"], .read 0 .int [str "b", str "c"],
   .typed 0 (.addKeyValueString (str "n") (str "x y")) [str "b"], .typed 0 (.addBool true) [str "a"], .read 0 .ints [str "a"],
   .base (.delete 0 [str "a", str "3"]), .read 0 .ints [str "a"], .typed 0 (.insertInt (-1) 5) [str "a"], .read 0 .string [str "b", str "n"], .json 0, .tree 0 true]

/-- An answer as a text. -/
def TAns.show : TAns → Bytes
  | .base a => a.show
  | .value (.bytes b) => b
  | .value (.int n) => itoa n
  | .value (.ints l) => (l.map fun n => itoa n ++ [59]).flatten
  | .value _ => str "value"
  | .error (.int n) _ => str "error " ++ itoa n
  | .error _ _ => str "error"

example : ∃ answers w, TRun ⟨fun s => (atoi s).map fun n => UInt64.ofNat n.toNat, fun x => itoa x.toNat⟩ ⟨[], []⟩ typedDemo answers w ∧ answers.map TAns.show =
    [str "parsed", str "{\"a\":[1, 22 ,3],\"b\":{\"c\":9}}", str "9", str "{\"a\":[1, 22 ,3],\"b\":{\"c\":9,\"n\":\"x y\"}}",
     str "{\"a\":[1, 22 ,3,true],\"b\":{\"c\":9,\"n\":\"x y\"}}", str "error", str "{\"a\":[1, 22 ,3],\"b\":{\"c\":9,\"n\":\"x y\"}}",
     str "1;22;3;", str "error, {\"a\":[1, 22 ,3],\"b\":{\"c\":9,\"n\":\"x y\"}}", str "x y",
     str "{\"a\":[1, 22 ,3],\"b\":{\"c\":9,\"n\":\"x y\"}}",
     str "─ a      : [1, 22 ,3]\n\t└  0      : 1\n\t└  1      :  22 \n\t└  2      : 3\n─ b      : {\"c\":9,\"n\":\"x y\"}\n\t└  c      : 9\n\t└  n      : \"x y\"\n"] := by
  obtain ⟨w, h⟩ := (C108_sessions _ typedDemo (by intro c hc k pad b e; subst e; simp [typedDemo] at hc) _).2 rfl
  exact ⟨_, w, h, by decide +kernel⟩

end Jin.Go
