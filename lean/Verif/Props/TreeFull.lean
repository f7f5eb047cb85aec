import Verif.Props.TextTree
/-!
# Properties C68 and C111: the drawings of a parser after calls

`C68_tree_partial` leaves out documents with an array of one scalar and says nothing about `TreeFull` after
calls.  Here both drawings are described for every parser that `Parse` and the calls of `PCall.ok` have made.
-/

namespace Jin
open Spec

mutual
/-- `t` has a line for everything below `v`, in the order of the text, with the lines for an entry's own entries behind
its line; `line` says what a line may be.  An array of one scalar may have no line for it. -/
def Drawn (line : Nat → Text → Json → Text → Prop) (depth : Nat) : Json → Text → Prop
  | .arr _ es, t => (t = [] ∧ ∃ e, es = [e] ∧ e.v.isContainer = false) ∨ DrawnE line depth 0 es t
  | .obj _ ms, t => DrawnM line depth ms t
  | _, t => t = []
def DrawnE (line : Nat → Text → Json → Text → Prop) (depth k : Nat) : List (Elem Json) → Text → Prop
  | [], t => t = []
  | ⟨_, v, _⟩ :: es, t => ∃ t1 t2 t3, t = t1 ++ t2 ++ t3 ∧ line depth (itoa k) v t1 ∧ Drawn line (depth + 1) v t2 ∧ DrawnE line depth (k + 1) es t3
def DrawnM (line : Nat → Text → Json → Text → Prop) (depth : Nat) : List (Member Json) → Text → Prop
  | [], t => t = []
  | ⟨_, key, _, _, v, _⟩ :: ms, t => ∃ t1 t2 t3, t = t1 ++ t2 ++ t3 ∧ line depth key v t1 ∧ Drawn line (depth + 1) v t2 ∧ DrawnM line depth ms t3
end

/-- A line of `Tree`. -/
def plainLine (depth : Nat) (label : Text) (_ : Json) (t : Text) : Prop := t = outlineLine depth label

/-- A line of `TreeFull`: the text of the value is that of the document, a scalar with white space around it. -/
def fullLine (pad : Text → Text) (depth : Nat) (label : Text) (v : Json) (t : Text) : Prop :=
  ∃ l r, Ws l ∧ Ws r ∧ (v.isContainer = true → l = [] ∧ r = []) ∧ t = outlineFullLine pad depth label (l ++ v.render ++ r)

theorem lone_scalar {es : List (Elem Json)} (h : lone es = true) : ∃ e, es = [e] ∧ e.v.isContainer = false := by
  cases es with
  | nil => simp [lone] at h
  | cons e es =>
    cases es with
    | nil => exact ⟨e, rfl, by simpa [lone] using h⟩
    | cons => simp [lone] at h

section
variable {pad : Bytes → Bytes} {b : Bool} {line : Nat → Text → Json → Text → Prop}
  (hline : ∀ depth label val v, ValOf val v → line depth label v (treeLine pad depth b label val))
include hline

mutual
theorem kids_drawn : ∀ (v : Json) (depth : Nat) {ds : List Node}, Kids ds v → Drawn line depth v (createTrees pad depth b ds)
  | .lit _, _, ds, h => by simp only [Kids] at h; subst h; rfl
  | .str _, _, ds, h => by simp only [Kids] at h; subst h; rfl
  | .arr _ es, depth, ds, h => by
    rw [Kids] at h
    rw [Drawn]
    rcases h with ⟨h, rfl⟩ | h
    · exact .inl ⟨rfl, lone_scalar h⟩
    · exact .inr (kidsE_drawn es depth h)
  | .obj _ ms, depth, ds, h => by
    rw [Kids] at h
    exact kidsM_drawn ms depth h
theorem kidsE_drawn : ∀ (es : List (Elem Json)) (depth : Nat) {k : Nat} {ds : List Node}, KidsE k ds es →
    DrawnE line depth k es (createTrees pad depth b ds)
  | [], _, _, ds, h => by rw [KidsE] at h; subst h; rfl
  | ⟨l, v, r⟩ :: es, depth, k, ds, h => by
    obtain ⟨d, rest, rfl, h1, h2, h3⟩ := kidsE_cons.1 h
    rw [createTrees_cons, h1, DrawnE]
    exact ⟨_, _, _, (List.append_assoc ..).symm, hline _ _ _ _ h2.1, kids_drawn v (depth + 1) h2.2, kidsE_drawn es depth h3⟩
theorem kidsM_drawn : ∀ (ms : List (Member Json)) (depth : Nat) {ds : List Node}, KidsM ds ms →
    DrawnM line depth ms (createTrees pad depth b ds)
  | [], _, ds, h => by rw [KidsM] at h; subst h; rfl
  | ⟨l, key, m, l2, v, r⟩ :: ms, depth, ds, h => by
    obtain ⟨d, rest, rfl, h1, h2, h3⟩ := kidsM_cons.1 h
    rw [createTrees_cons, h1, DrawnM]
    exact ⟨_, _, _, (List.append_assoc ..).symm, hline _ _ _ _ h2.1, kids_drawn v (depth + 1) h2.2, kidsM_drawn ms depth h3⟩
end
end

/-- **C68 (partial)** `Tree` and `TreeFull` after `Parse` and any number of the calls of `PCall.ok` draw the document that
the text now is; an array of one scalar may be drawn without its element (`C68_fails`).  Missing: the other calls. -/
theorem C68_drawn_partial {p : Parser} {d : Doc} (h : Reached p d) (pad : Text → Text) :
    Drawn plainLine 0 d.root p.Tree ∧ Drawn (fullLine pad) 0 d.root (p.TreeFull pad) := by
  have hk := (session_sync h).kids
  constructor
  · rw [tree_eq]
    exact kids_drawn (fun depth label val v _ => treeLine_outline _ depth label val) d.root 0 hk
  · have e : p.TreeFull pad = createTrees pad 0 true p.core.down := by
      unfold Parser.TreeFull
      cases p.core
      rw [Node.createTree]; rfl
    rw [e]
    refine kids_drawn (fun depth label val v hv => ?_) d.root 0 hk
    obtain ⟨l, r, h1, h2, rfl, h4⟩ := hv
    exact ⟨l, r, h1, h2, h4, by rw [treeLine_full, List.append_assoc]⟩

/-- Two arrays of one scalar: one from the text, drawn without its element, and one that `Delete` made, drawn with it. -/
example : (match Parse (str "{\"a\":[ 1 ],\"b\":[1, 2 ]}") with
    | .ok p => (match p.Delete [str "b", str "1"] with | .done q e => (q.JSON, e, q.Tree) | .panic => ([], none, []))
    | _ => ([], none, [])) = (str "{\"a\":[ 1 ],\"b\":[1 ]}", none, str "─ a\n─ b\n\t└  0\n") := by decide +kernel

namespace Go

/-- **C111 (partial)** The same of the text: what `Tree` and `TreeFull` give for a parser that a program holds and that `Parse` and
calls of `PCall.ok` have made.  Missing: the other calls. -/
theorem C111_drawn_partial (fl : FloatLib UInt64) (calls : List TCall) (hc : ∀ c ∈ calls, ∀ k pad b, c ≠ .base (.tree k pad b)) {answers : List TAns} {w : WorldP}
    (h : TRun fl ⟨[], []⟩ calls answers w) {k : Nat} {p : ParserP} {P : Parser} (hp : w.parsers[k]? = some p) (hP : (tVals fl [] calls).2[k]? = some P)
    {d : Doc} (hd : Reached P d) :
    p.json = d.render ∧ ∃ t1 t2,
      Call1 fl (go% Parser.Tree) [.heap w.heap, .ptr p.core, .bytes p.json] (.ok [.heap w.heap, .ptr p.core, .bytes p.json, .bytes t1]) ∧
      Call1 fl (go% Parser.TreeFull) [.heap w.heap, .ptr p.core, .bytes p.json] (.ok [.heap w.heap, .ptr p.core, .bytes p.json, .bytes t2]) ∧
      Drawn plainLine 0 d.root t1 ∧ Drawn (fullLine fun l => List.replicate (6 - runeCount l) 32) 0 d.root t2 := by
  obtain ⟨w', L, h1, h2, hL⟩ := t_run (fl := fl) WRel.empty (fun _ _ h => by simp at h) calls hc
  obtain ⟨-, rfl⟩ := h.unique h1
  rcases hL.slot k with ⟨-, k2, -⟩ | ⟨s, k1, k2, k3⟩
  · rw [k2] at hp; cases hp
  rw [k2] at hp
  cases hp
  have hs := hL.rep k s k1
  have he : s.P = P := by
    have := k3.symm.trans hP
    cases this
    rfl
  have hdr := draws (fl := fl) hs
  rw [he] at hdr
  obtain ⟨d1, d2⟩ := C68_drawn_partial hd pad6
  exact ⟨by rw [hs.json, he]; exact (session_sync hd).json, _, _, hdr.1, hdr.2, d1, d2⟩

/-- The program in the example of `C111_tree_partial` meets the conditions of `C111_drawn_partial`; what a line of `TreeFull` may be. -/
example : fullLine pad6 1 (str "é") (.lit (str "1")) (str "\t└  é      :  1\n") ∧ ¬ fullLine pad6 1 (str "é") (.lit (str "1")) (str "\t└  é      : 2\n") := by
  refine ⟨⟨[32], [], by decide, by decide, by simp [Json.isContainer], by decide +kernel⟩, ?_⟩
  rintro ⟨l, r, -, -, -, h⟩
  have h := congrArg (fun t => t.contains 49) h
  simp only [outlineFullLine, Json.render, List.contains_append] at h
  rw [show (str "1").contains 49 = true by decide +kernel, show (str "\t└  é      : 2\n").contains 49 = false by decide +kernel] at h
  simp at h

end Go
end Jin
