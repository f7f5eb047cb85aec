import Verif.Proof.PtrWorld
/-!
# Props.ParserPtr — parsers as pointers into a memory of nodes (C96, C97)
-/

namespace Jin

/-- **C96.** A program that parses texts and calls the methods of its parsers in any order gets the same answers, up to
the first panic, from nodes linked by pointers in one memory as from parsers that are values of their own. -/
theorem C96_sessions (calls : List PtrCall) : WorldP.run ⟨[], []⟩ calls = valRun [] calls := WRel.empty.run calls

/-- The program of the examples: two parsers on the same text, changed in turn. -/
def ptrDemo : List PtrCall :=
  [.parse (str "{\"a\":[1,{\"b\":2}],\"c\":3}"), .parse (str "{\"a\":[1,{\"b\":2}],\"c\":3}"),
   .set 0 (str "[7,8]") [str "a", str "1", str "b"], .insert 1 0 (str "9") [str "a"], .delete 0 [str "c"], .setKey 1 (str "d") [str "c"],
   .addKeyValue 0 (str "kk") (str "{\"x\":[]}") [], .add 1 (str "true") [str "a"],
   .get 0 [str "a", str "1", str "b", str "1"], .get 1 [str "a"], .getNew 0 [], .getNew 1 [str "a"], .get 2 [], .tree 0 (fun _ => []) false]

def PAns.show : PAns → Bytes
  | .parsed none => str "parsed"
  | .parsed (some _) => str "refused"
  | .did json none => json
  | .did json (some _) => str "error, " ++ json
  | .read (.ok b) => b
  | .read (.err _) => str "error"
  | .read .panic => str "panic"
  | .panic => str "panic"
  | .noParser => str "no parser"

example : ((WorldP.run ⟨[], []⟩ ptrDemo).map PAns.show).dropLast =
    [str "parsed", str "parsed", str "{\"a\":[1,{\"b\":[7,8]}],\"c\":3}", str "{\"a\":[9,1,{\"b\":2}],\"c\":3}",
     str "{\"a\":[1,{\"b\":[7,8]}]}", str "{\"a\":[9,1,{\"b\":2}],\"d\":3}", str "{\"a\":[1,{\"b\":[7,8]}],\"kk\":{\"x\":[]}}",
     str "{\"a\":[9,1,{\"b\":2},true],\"d\":3}", str "error", str "[9,1,{\"b\":2},true]",
     str "{\"a\":[1,{\"b\":[[7,8]]}],\"kk\":{\"0\":{\"x\":[]}}}", str "[1,{\"b\":2},9,true]", str "no parser"] ∧
    (WorldP.run ⟨[], []⟩ ptrDemo).length = ptrDemo.length := by
  refine ⟨?_, ?_⟩ <;> decide +kernel

/-- The number of nodes in memory and where the two parsers of the example begin. -/
example : (WorldP.after ⟨[], []⟩ ptrDemo).heap.length = 23 ∧ (WorldP.after ⟨[], []⟩ ptrDemo).parsers.map ParserP.core = [1, 8] := by
  refine ⟨?_, ?_⟩ <;> decide +kernel

theorem WRel.trees {w : WorldP} {vs : List Parser} {L : List Slot} (hL : WRel w vs L) (i : Nat) (p : ParserP) (hp : w.parsers[i]? = some p) :
    (∀ n, w.heap.Reach p.core n → ∃ r, w.heap[n]? = some r ∧
      (∀ d ∈ r.down, (∃ rd, w.heap[d]? = some rd ∧ rd.up = some n) ∧ ¬ w.heap.Reach d n) ∧
      r.down.Pairwise fun d e => ∀ x, w.heap.Reach d x → ¬ w.heap.Reach e x) ∧
    (∀ j q, j ≠ i → w.parsers[j]? = some q → ∀ n, w.heap.Reach p.core n → ¬ w.heap.Reach q.core n) := by
  have hslot : ∀ {k : Nat} {q : ParserP}, w.parsers[k]? = some q → ∃ s, L[k]? = some s ∧ Rep w.heap q s.P s.up s.t := by
    intro k q hq
    rcases hL.slot k with ⟨-, h2, -⟩ | ⟨s, h1, h2, -⟩
    · rw [h2] at hq; cases hq
    · rw [h2] at hq; cases hq; exact ⟨s, h1, hL.rep k s h1⟩
  obtain ⟨s, hs, hr⟩ := hslot hp
  refine ⟨fun n hn => ?_, fun j q hj hq n hn hn' => ?_⟩
  · rw [hr.core] at hn
    obtain ⟨u, hu, rfl⟩ := hr.holds.here.reach hn
    obtain ⟨v, hv⟩ := hu.here hr.holds.here
    have hun := hu.nodup hr.holds.nodup
    refine ⟨_, hv.cell, fun d hd => ?_, ?_⟩
    · obtain ⟨e, he, rfl⟩ := List.mem_map.1 hd
      refine ⟨⟨_, (hv.kids e he).cell, rfl⟩, fun hre => ?_⟩
      obtain ⟨x, hx, hxp⟩ := (hv.kids e he).reach hre
      exact kid_ne hun he (hx.mem _ (ptr_mem x)) hxp.symm
    · rw [List.pairwise_map]
      have hpw := (nodup_mk.1 (by rw [← u.eta]; exact hun : (PTree.mk u.ptr u.label u.value u.down).ptrs.Nodup)).2.2
      refine hpw.imp_of_mem fun {a b} ha hb hab x hxa hxb => ?_
      obtain ⟨y, hy, rfl⟩ := (hv.kids a ha).reach hxa
      obtain ⟨z, hz, hzp⟩ := (hv.kids b hb).reach hxb
      exact hab _ (hy.mem _ (ptr_mem y)) (by rw [← hzp]; exact hz.mem _ (ptr_mem z))
  · obtain ⟨s2, hs2, hr2⟩ := hslot hq
    rw [hr.core] at hn
    rw [hr2.core] at hn'
    obtain ⟨y, hy, rfl⟩ := hr.holds.here.reach hn
    obtain ⟨z, hz, hzp⟩ := hr2.holds.here.reach hn'
    exact hL.apart i j s s2 hs hs2 (fun e => hj e.symm) _ (hy.mem _ (ptr_mem y)) (by rw [← hzp]; exact hz.mem _ (ptr_mem z))

/-- **C97, shape.** After any calls, the nodes of the parsers are separate trees: the pointer `up` of each child is the
node that has it, a node is not below its own children, two children of a node have nothing in common, and neither have
two parsers. -/
theorem C97_trees (calls : List PtrCall) (w : WorldP) (hw : w = WorldP.after ⟨[], []⟩ calls) (i : Nat) (p : ParserP) (hp : w.parsers[i]? = some p) :
    (∀ n, w.heap.Reach p.core n → ∃ r, w.heap[n]? = some r ∧
      (∀ d ∈ r.down, (∃ rd, w.heap[d]? = some rd ∧ rd.up = some n) ∧ ¬ w.heap.Reach d n) ∧
      r.down.Pairwise fun d e => ∀ x, w.heap.Reach d x → ¬ w.heap.Reach e x) ∧
    (∀ j q, j ≠ i → w.parsers[j]? = some q → ∀ n, w.heap.Reach p.core n → ¬ w.heap.Reach q.core n) := by
  obtain ⟨L, hL⟩ := WRel.empty.after calls
  rw [← hw] at hL
  exact hL.trees i p hp

/-- The parser a call is made on. -/
def PtrCall.on : PtrCall → Option Nat
  | .parse _ => none
  | .set k _ _ | .setKey k _ _ | .delete k _ | .addKeyValue k _ _ _ | .add k _ _ | .insert k _ _ _ | .get k _ | .getNew k _ | .tree k _ _ => some k

theorem mut_other {w : WorldP} {k j : Nat} {f : NHeap → ParserP → PResP} (hj : k ≠ j) : (w.mut k f).1.parsers[j]? = w.parsers[j]? := by
  unfold WorldP.mut
  split
  · rfl
  · split
    · rfl
    · exact List.getElem?_set_ne hj

theorem look_same {w : WorldP} {k : Nat} {f : NHeap → ParserP → Out Bytes} : (w.look k f).1 = w := by
  unfold WorldP.look
  split <;> rfl

theorem valMut_other {vs : List Parser} {k j : Nat} {f : Parser → PRes} (hj : k ≠ j) : (valMut vs k f).1[j]? = vs[j]? := by
  unfold valMut
  split
  · rfl
  · split
    · rfl
    · exact List.getElem?_set_ne hj

theorem valLook_same {vs : List Parser} {k : Nat} {f : Parser → Out Bytes} : (valLook vs k f).1 = vs := by
  unfold valLook
  split <;> rfl

theorem step_other (w : WorldP) (vs : List Parser) (c : PtrCall) (j : Nat) (hj : c.on ≠ some j) (hlen : w.parsers.length = vs.length) (hjl : j < vs.length) :
    (w.step c).1.parsers[j]? = w.parsers[j]? ∧ (valStep vs c).1[j]? = vs[j]? := by
  cases c with
  | parse json =>
    unfold WorldP.step valStep
    constructor
    · simp only
      split
      · rfl
      · rfl
      · exact List.getElem?_append_left (by omega)
    · simp only
      split
      · rfl
      · rfl
      · exact List.getElem?_append_left hjl
  | get k path => exact ⟨by rw [WorldP.step, look_same], by rw [valStep, valLook_same]⟩
  | getNew k path => exact ⟨by rw [WorldP.step, look_same], by rw [valStep, valLook_same]⟩
  | tree k pad b => exact ⟨by rw [WorldP.step, look_same], by rw [valStep, valLook_same]⟩
  | set k _ _ => have hk : k ≠ j := (fun e => hj (by rw [e]; rfl)); exact ⟨mut_other hk, valMut_other hk⟩
  | setKey k _ _ => have hk : k ≠ j := (fun e => hj (by rw [e]; rfl)); exact ⟨mut_other hk, valMut_other hk⟩
  | delete k _ => have hk : k ≠ j := (fun e => hj (by rw [e]; rfl)); exact ⟨mut_other hk, valMut_other hk⟩
  | addKeyValue k _ _ _ => have hk : k ≠ j := (fun e => hj (by rw [e]; rfl)); exact ⟨mut_other hk, valMut_other hk⟩
  | add k _ _ => have hk : k ≠ j := (fun e => hj (by rw [e]; rfl)); exact ⟨mut_other hk, valMut_other hk⟩
  | insert k _ _ _ => have hk : k ≠ j := (fun e => hj (by rw [e]; rfl)); exact ⟨mut_other hk, valMut_other hk⟩

/-- **C97, independence.** After any calls, a further call on one parser changes nothing that can be read through
another: its text, the values at its paths, the texts it builds anew, its drawing. -/
theorem C97_apart (calls : List PtrCall) (w : WorldP) (hw : w = WorldP.after ⟨[], []⟩ calls) (c : PtrCall) (j : Nat) (hj : c.on ≠ some j)
    (p : ParserP) (hp : w.parsers[j]? = some p) :
    (w.step c).1.parsers[j]? = some p ∧ ∀ path pad b,
      p.Get (w.step c).1.heap path = p.Get w.heap path ∧
      p.GetNew (w.step c).1.heap (2 * (w.step c).1.heap.length) path = p.GetNew w.heap (2 * w.heap.length) path ∧
      p.tree (w.step c).1.heap (w.step c).1.heap.length pad b = p.tree w.heap w.heap.length pad b := by
  obtain ⟨L, hL⟩ := WRel.empty.after calls
  rw [← hw] at hL
  generalize valAfter [] calls = vs at hL
  obtain ⟨L', hL', -⟩ := hL.step c
  have hlen : w.parsers.length = vs.length := by rw [hL.left, hL.right, List.length_map, List.length_map]
  have hjl : j < vs.length := by rw [← hlen]; exact (List.getElem?_eq_some_iff.1 hp).1
  obtain ⟨o1, o2⟩ := step_other w vs c j hj hlen hjl
  have hp' := o1.trans hp
  refine ⟨hp', fun path pad b => ?_⟩
  rcases hL.slot j with ⟨-, h2, -⟩ | ⟨s, h1, h2, h3⟩
  · rw [h2] at hp; cases hp
  rw [h2] at hp
  cases hp
  rcases hL'.slot j with ⟨-, k2, -⟩ | ⟨s', k1, k2, k3⟩
  · rw [k2] at hp'; cases hp'
  rw [k2] at hp'
  have hsp : s'.p = s.p := Option.some.inj hp'
  rw [o2, h3] at k3
  have hsP : s.P = s'.P := Option.some.inj k3
  have r1 := hL.rep j s h1
  have r2 := hL'.rep j s' k1
  rw [hsp, ← hsP] at r2
  refine ⟨by rw [get_sim r1, get_sim r2], by rw [getNew_sim r1 (Nat.le_refl _), getNew_sim r2 (Nat.le_refl _)],
    by rw [tree_sim r1 (Nat.le_refl _), tree_sim r2 (Nat.le_refl _)]⟩

end Jin
