import Verif.Props.Sample
import Verif.Proof.ParserGet
import Verif.Proof.ParserMut
import Verif.Proof.ParserWalk
import Verif.Props.Add
/-!
# Props.Parser — C53–C56: the `Parser` type
-/

namespace Jin
open Spec

/-! ### C53 -/

/-- What `Parser.Get` returns for every path after `Parse`. -/
theorem C53_exact {d : Doc} (hd : d.wf) (hc : d.root.isContainer) (path : List Text) :
    ∃ p, Parse d.render = .ok p ∧
      if path = [] then p.Get path = .ok d.render
      else match d.root.treeGet? path with
        | some w => p.Get path = .ok w.content
        | none => ∃ x ∈ path, p.Get path = .err (.keyNotFound x) := by
  refine ⟨_, Parse_ok hd hc, ?_⟩
  split
  · next h => subst h; rfl
  · next h =>
    have hl : (path.length == 0) = false := by cases path <;> simp_all
    have hw : d.root.wf := by simp only [Doc.wf, Bool.and_eq_true] at hd; exact hd.1.2
    cases ht : d.root.treeGet? path with
    | some w =>
      obtain ⟨lb, l, r, h1, h2, h3, h4⟩ := walk_found (label := itoa 0) (l := []) (r := []) path hw (by simp [Ws]) (by simp [Ws]) ht
      simp only [Parser.Get, hl, Bool.false_eq_true, if_false]
      rw [show (rootNode d.root) = nodeOf (itoa 0) [] [] d.root from rfl, h4]
      exact nodeOf_clean h3 h1 h2
    | none =>
      obtain ⟨x, hx, h⟩ := walk_missing (label := itoa 0) (l := []) (r := []) path hw ht
      refine ⟨x, hx, ?_⟩
      simp only [Parser.Get, hl, Bool.false_eq_true, if_false]
      rw [show (rootNode d.root) = nodeOf (itoa 0) [] [] d.root from rfl, h]
      rfl

/-- `Parser.Get` agrees with `Get`.  Missing: paths that end in the only element of an
array when it is a scalar, which the tree does not contain (`C53_fails`). -/
theorem C53_partial {d : Doc} (hd : d.wf) (hc : d.root.isContainer) {path : List Text} {w : Json}
    (hg : d.get? path = some w) (hp : d.root.plainPath path)
    (hl : ∀ pre x g es, path = pre ++ [x] → d.get? pre = some (.arr g es) → lone es = false) :
    ∃ p, Parse d.render = .ok p ∧ p.Get path = Get d.render path := by
  obtain ⟨p, h1, h2⟩ := C53_exact hd hc path
  refine ⟨p, h1, ?_⟩
  split at h2
  · next h => subst h; rw [h2]; simp [Get]
  · next h =>
    rw [treeGet_get path hg hp hl] at h2
    rw [h2, get_ok hd h hg]

/-- The element of a one-element array of a scalar is never found. -/
theorem C53_fails {d : Doc} (hd : d.wf) (hc : d.root.isContainer) {pre : List Text} {g : Text} {e : Elem Json}
    (hg : d.get? pre = some (.arr g [e])) (he : e.v.isContainer = false) :
    Get d.render (pre ++ [itoa 0]) = .ok e.v.content ∧
    ∃ p x, Parse d.render = .ok p ∧ p.Get (pre ++ [itoa 0]) = .err (.keyNotFound x) := by
  have h0 : d.get? (pre ++ [itoa 0]) = some e.v := by
    rw [Doc.get?, get_append, show d.root.get? pre = _ from hg]
    have : readIndex (itoa 0) = some 0 := readIndex_itoa (n := 0) (by decide)
    simp [Json.get?, Json.child?, this]
  refine ⟨get_ok hd (by simp) h0, ?_⟩
  obtain ⟨p, h1, h2⟩ := C53_exact hd hc (pre ++ [itoa 0])
  rw [if_neg (by simp)] at h2
  have hn : d.root.treeGet? (pre ++ [itoa 0]) = none := by
    have key : ∀ (pre : List Text) {v u : Json}, v.get? pre = some (.arr g [e]) → v.treeGet? (pre ++ [itoa 0]) = some u → False := by
      intro pre
      induction pre with
      | nil =>
        intro v u h ht
        simp only [Json.get?, Option.some.injEq] at h
        subst h
        simp [Json.treeGet?, Json.treeChild?, lone, he] at ht
      | cons q qs ih =>
        intro v u h ht
        obtain ⟨c, hc, h⟩ := get_cons h
        rw [List.cons_append, Json.treeGet?] at ht
        cases hch : v.treeChild? q with
        | none => rw [hch] at ht; cases ht
        | some c' =>
          rw [hch] at ht
          have : c' = c := by
            cases v with
            | lit _ => cases hch
            | str _ => cases hch
            | obj g ms => exact Option.some.inj (hch.symm.trans hc)
            | arr g es =>
              simp only [Json.treeChild?] at hch
              split at hch
              · cases hch
              · next hn =>
                simp only [Bool.or_eq_true, not_or, Bool.not_eq_true, Bool.not_eq_false'] at hn
                simp only [Json.child?] at hc
                cases hr : readIndex q with
                | none => rw [hr] at hc; cases hc
                | some n =>
                  rw [hr] at hc
                  have := readIndex_plain (by simpa using hn.2) hr
                  subst this
                  exact Option.some.inj (hch.symm.trans hc)
          subst this
          exact ih h ht
    cases ht : d.root.treeGet? (pre ++ [itoa 0]) with
    | none => rfl
    | some u => exact (key pre hg ht).elim
  rw [hn] at h2
  obtain ⟨x, -, h2⟩ := h2
  exact ⟨p, x, h1, h2⟩

/-- The hypotheses of `C53_partial` are met in the sample document (an element of an array
after a key with an escaped quote). -/
example : ∃ p, Parse Sample.doc.render = .ok p ∧ p.Get Sample.toStr = Get Sample.doc.render Sample.toStr := by
  refine C53_partial Sample.doc_wf rfl Sample.get_str (by decide +kernel) ?_
  intro pre x g es h hg
  have : pre = Sample.toArr := by
    have := congrArg List.dropLast h
    simpa [Sample.toStr, Sample.toArr] using this.symm
  subst this
  have : Sample.doc.get? Sample.toArr = some (.arr [] Sample.elems) := by decide +kernel
  rw [this] at hg
  cases hg
  rfl

/-- The hypotheses of `C53_fails` are met by `{"a":[5]}`. -/
example : Get (str "{\"a\":[5]}") [str "a", str "0"] = .ok (str "5") ∧
    ∃ p x, Parse (str "{\"a\":[5]}") = .ok p ∧ p.Get [str "a", str "0"] = .err (.keyNotFound x) := by
  have h := C53_fails (d := ⟨[], .obj [] [Sample.mem (str "a") (.arr [] [Sample.el (.lit (str "5"))])], []⟩)
    (by decide +kernel) rfl (pre := [str "a"]) (g := []) (e := Sample.el (.lit (str "5"))) (by decide +kernel) rfl
  have e1 : (⟨[], .obj [] [Sample.mem (str "a") (.arr [] [Sample.el (.lit (str "5"))])], []⟩ : Doc).render = str "{\"a\":[5]}" := by decide +kernel
  have e2 : [str "a"] ++ [itoa 0] = [str "a", str "0"] := by decide +kernel
  rw [e1, e2] at h
  exact h

/-- Parse, call a mutator, and look at the parser afterwards. -/
def session {α : Type} (json : Bytes) (f : Parser → PRes) (look : Parser → α) : Option (α × Option Err) :=
  match Parse json with
  | .ok p =>
    match f p with
    | .done p' e => some (look p', e)
    | .panic => none
  | _ => none

theorem session_some {α : Type} {json : Bytes} {f : Parser → PRes} {look : Parser → α} {a : α} {e : Option Err}
    (h : session json f look = some (a, e)) : ∃ p p', Parse json = .ok p ∧ f p = .done p' e ∧ look p' = a := by
  unfold session at h
  split at h
  · next p hp =>
    split at h
    · next p' e' hf => cases h; exact ⟨p, p', hp, hf, rfl⟩
    · cases h
  · cases h

/-! ### C54 -/

theorem finish_json {json : Bytes} {n : Node} {qs : List (List Bytes)} {p' : Parser} {e : Option Err}
    (h : finish json n qs = .done p' e) : p'.json = json := by
  unfold finish at h
  split at h
  · cases h; rfl
  · cases h

/-- After `Parser.Set` of a path that the parser resolves the text is what `Set` gives. -/
theorem C54_set {p p' : Parser} {new : Bytes} {path : List Bytes} {e : Option Err} {nd : Node} (hp : path ≠ [])
    (hw : p.core.walk path = .ok nd) (h : p.Set new path = .done p' e) :
    ∃ e', Set p.json new path = .done p'.json e' := by
  have hl : (path.length == 0) = false := by cases path <;> simp_all
  simp only [Parser.Set, hl, Bool.false_eq_true, if_false, hw] at h
  split at h
  · next hj =>
    rw [finish_json h]
    cases hm : Set p.json new path with
    | panic => rw [hm] at hj; cases hj
    | done j e' => rw [hm] at hj; cases hj; exact ⟨e', rfl⟩
  · cases h

/-- `Parser.Delete` gives the text of `Delete`, and its error when there is one. -/
theorem C54_delete {p p' : Parser} {path : List Bytes} {e : Option Err} {nd : Node} (hp : path ≠ [])
    (hw : p.core.walk path = .ok nd) (h : p.Delete path = .done p' e) :
    ∃ e', Delete p.json path = .done p'.json e' ∧ (e'.isSome → e = e') := by
  have hl : (path.length == 0) = false := by cases path <;> simp_all
  simp only [Parser.Delete, hl, Bool.false_eq_true, if_false, hw] at h
  cases hm : Delete p.json path with
  | panic => rw [hm] at h; cases h
  | done j e' =>
    rw [hm] at h
    cases e' with
    | some x => cases h; exact ⟨_, rfl, fun _ => rfl⟩
    | none => exact ⟨none, by rw [finish_json h], by simp⟩

/-- When `Parser.SetKey` reports success the text is what `SetKey` gives. -/
theorem C54_setKey {p p' : Parser} {new : Bytes} {path : List Bytes} (h : p.SetKey new path = .done p' none) :
    ∃ e', SetKey p.json new path = .done p'.json e' := by
  unfold Parser.SetKey at h
  repeat' split at h
  all_goals first | (cases h; done) | skip
  next hj _ _ _ =>
    cases h
    cases hm : SetKey p.json new path with
    | panic => rw [hm] at hj; cases hj
    | done j e' => rw [hm] at hj; cases hj; exact ⟨e', rfl⟩

/-- A path that the parser does not resolve changes nothing. -/
theorem C54_unresolved {p : Parser} {new : Bytes} {path : List Bytes} {e : Err} (hp : path ≠ []) (hn : new ≠ [])
    (hw : p.core.walk path = .err e) :
    p.Set new path = .done p (some e) ∧ p.Delete path = .done p (some e) ∧ p.SetKey new path = .done p (some e) := by
  have hl : (path.length == 0) = false := by cases path <;> simp_all
  have hk : (new.length == 0) = false := by cases new <;> simp_all
  simp [Parser.Set, Parser.Delete, Parser.SetKey, hl, hk, hw]

/-- `Parse` gives a parser in step with its text. -/
theorem parse_sync {d : Doc} (hd : d.wf) (hc : d.root.isContainer) :
    ∃ p, Parse d.render = .ok p ∧ Sync p d := by
  refine ⟨_, Parse_ok hd hc, rfl, hd, hc, ?_⟩
  exact kids_nodeOf d.root (doc_wf.1 hd).2.1

theorem setKey_found {d : Doc} {p : List Text} {new q : Text} {c : Json} (hd : d.wf) (hn : new ≠ [])
    (h : d.get? (p ++ [new]) = some c) : SetKey d.render new (p ++ [q]) = .done d.render (some (.badJSON 0)) := by
  obtain ⟨f, hf, -⟩ := findAt_of_get h
  have hk : (new.length == 0) = false := by cases new <;> simp_all
  simp [SetKey, hk, core_found hd (by simp) hf]

/-- `Parser.SetKey` whatever it reports: the text is what `SetKey` gives. -/
theorem C54_setKey_all {p p' : Parser} {d : Doc} {new : Bytes} {path : List Bytes} {e : Option Err} {nd : Node} (hs : Sync p d)
    (hb : (d.render.length : Int) ≤ 9223372036854775807) (hw : p.core.walk path = .ok nd) (h : p.SetKey new path = .done p' e) :
    ∃ e', SetKey p.json new path = .done p'.json e' := by
  cases e with
  | none => exact C54_setKey h
  | some e =>
    by_cases hp : path = []
    · subst hp
      simp only [Parser.SetKey, List.length_nil, beq_self_eq_true, if_true, PRes.done.injEq] at h
      rw [← h.1]
      unfold SetKey
      split
      · exact ⟨_, rfl⟩
      · exact ⟨_, rfl⟩
    by_cases hn : new = []
    · subst hn
      have hl : (path.length == 0) = false := by cases path <;> simp_all
      simp only [Parser.SetKey, hl, Bool.false_eq_true, if_false, List.length_nil, beq_self_eq_true, if_true, PRes.done.injEq] at h
      rw [← h.1]
      exact ⟨_, rfl⟩
    obtain ⟨pre, q, rfl⟩ : ∃ pre q, path = pre ++ [q] := ⟨path.dropLast, path.getLast hp, (List.dropLast_concat_getLast hp).symm⟩
    obtain ⟨up, hup, -⟩ := walk_snoc pre hw
    have hl : ((pre ++ [q]).length == 0) = false := by simp
    have hk : (new.length == 0) = false := by cases new <;> simp_all
    simp only [Parser.SetKey, hl, hk, Bool.false_eq_true, if_false, hw, List.dropLast_concat, hup] at h
    split at h
    · next hany =>
      cases h
      obtain ⟨c, hc⟩ := label_get hs hb hup hany
      rw [hs.json]
      exact ⟨_, setKey_found hs.wf hn hc⟩
    · split at h
      · cases h
      · split at h <;> cases h

/-! ### C55 -/

/-- The value of the node at a path. -/
def Node.valueAt (n : Node) (path : List Bytes) : Out Bytes := (n.walk path).map Node.value

theorem find_replaceFirst {p q : Bytes} {f : Node → Node} (hf : ∀ d : Node, (f d).label = d.label) : ∀ ds : List Node,
    (replaceFirst (fun d => d.label == p) f ds).find? (fun d => d.label == q) =
      (ds.find? (fun d => d.label == q)).map fun d => if p = q then f d else d
  | [] => rfl
  | d :: ds => by
    by_cases hp : d.label = p
    · by_cases hq : d.label = q
      · simp [replaceFirst, hp, hf, ← hq]
      · have : ¬ p = q := fun e => hq (hp.trans e)
        have hb : (d.label == q) = false := by simpa using hq
        simp only [replaceFirst, hp, beq_self_eq_true, if_true, List.find?_cons, hf, this, if_false]
        rw [← hp, hb]
        simp
    · have hb : (d.label == p) = false := by simpa using hp
      simp only [replaceFirst, hb, Bool.false_eq_true, if_false, List.find?_cons]
      by_cases hq : d.label = q
      · have : ¬ p = q := fun e => hp (hq.trans e.symm)
        simp [hq, this]
      · have hbq : (d.label == q) = false := by simpa using hq
        rw [hbq]
        exact find_replaceFirst hf ds

/-- Setting the value of one node shows at no other path. -/
theorem valueAt_set_ne {v : Bytes} : ∀ (q r : List Bytes) (n : Node), r ≠ q →
    (n.updAt (·.setValue v) q).valueAt r = n.valueAt r
  | [], [], _, h => absurd rfl h
  | [], a :: r, n, _ => by simp [Node.updAt, Node.valueAt, Node.walk]
  | b :: q, [], n, _ => by simp [Node.updAt, Node.valueAt, Node.walk, Out.map]
  | b :: q, a :: r, n, h => by
    simp only [Node.valueAt, Node.updAt, Node.walk, setDown_down]
    rw [find_replaceFirst (fun d => updAt_label (by simp) d q)]
    cases n.down.find? (fun d => d.label == a) with
    | none => rfl
    | some d =>
      simp only [Option.map_some]
      by_cases hba : b = a
      · subst hba
        simp only [if_true]
        exact valueAt_set_ne q r d (fun e => h (by rw [e]))
      · simp only [hba, if_false]

theorem valueAt_set_eq {v : Bytes} : ∀ (q : List Bytes) {n nd : Node}, n.walk q = .ok nd →
    (n.updAt (·.setValue v) q).valueAt q = .ok v
  | [], n, _, _ => by simp [Node.updAt, Node.valueAt, Node.walk, Out.map]
  | b :: q, n, nd, h => by
    rw [Node.walk] at h
    simp only [Node.valueAt, Node.updAt, Node.walk, setDown_down]
    rw [find_replaceFirst (fun d => updAt_label (by simp) d q)]
    cases hf : n.down.find? (fun d => d.label == b) with
    | none => rw [hf] at h; cases h
    | some d =>
      rw [hf] at h
      simp only [Option.map_some, if_true]
      exact valueAt_set_eq q h

theorem refresh_valueAt {json : Bytes} {r : List Bytes} : ∀ {qs : List (List Bytes)} {n n' : Node} {e : Option Err},
    refresh json qs n = .ok (n', e) → r ∉ qs → n'.valueAt r = n.valueAt r
  | [], n, n', e, h, _ => by cases h; rfl
  | q :: qs, n, n', e, h, hr => by
    simp only [List.mem_cons, not_or] at hr
    rw [refresh] at h
    split at h
    · cases h
    · cases h; exact valueAt_set_ne q r n hr.1
    · rw [refresh_valueAt h hr.2]; exact valueAt_set_ne q r n hr.1

theorem get_valueAt {p : Parser} {path : List Bytes} (hp : path ≠ []) : p.Get path = (p.core.valueAt path).bind cleanValue := by
  have hl : (path.length == 0) = false := by cases path <;> simp_all
  simp only [Parser.Get, hl, Bool.false_eq_true, if_false, Node.valueAt]
  cases p.core.walk path <;> rfl

theorem scalar_plain {x : Json} (hx : x.wf) (hc : x.isContainer = false) : opensContainer x.render = false := by
  have key : ∀ c : UInt8, x.render.head? = some c → c ≠ 91 ∧ c ≠ 123 := by
    intro c h
    cases x with
    | lit t =>
      cases t with
      | nil => simp [Json.wf] at hx
      | cons a t =>
        simp only [Json.wf, List.all_cons, Bool.and_eq_true] at hx
        simp only [Json.render, List.head?_cons, Option.some.injEq] at h
        subst h
        constructor <;> rintro rfl <;> exact absurd hx.2.1 (by decide)
    | str t =>
      simp only [Json.render] at h
      have : c = 34 := by simpa using h.symm
      subst this
      decide
    | arr _ _ => simp [Json.isContainer] at hc
    | obj _ _ => simp [Json.isContainer] at hc
  unfold opensContainer
  cases h : x.render.head? with
  | none => simp
  | some c => simp [(key c h).1, (key c h).2]

theorem prefixes_prefix {path q : List Bytes} {c : Nat} (h : q ∈ prefixes path 1 c) : ∃ i, 1 ≤ i ∧ i ≤ c ∧ q = path.take i := by
  simp only [prefixes, List.mem_reverse, List.mem_map, List.mem_range'_1] at h
  obtain ⟨i, hi, rfl⟩ := h
  exact ⟨i, hi.1, by omega, rfl⟩

/-- **C55** For every parser state: after `Parser.Set` of a scalar at a path that the tree
resolves, `Parser.Get` of that path gives the scalar, and `Parser.Get` of every path that is
not a prefix of it gives what it gave before — whether or not `Set` reports an error. -/
theorem C55_get_after_set {p p' : Parser} {x : Json} {path : List Bytes} {e : Option Err} {nd : Node} (hp : path ≠ [])
    (hx : x.wf) (hc : x.isContainer = false) (hw : p.core.walk path = .ok nd) (h : p.Set x.render path = .done p' e) :
    p'.Get path = .ok x.content ∧ ∀ q, ¬ q <+: path → p'.Get q = p.Get q := by
  have hl : (path.length == 0) = false := by cases path <;> simp_all
  simp only [Parser.Set, hl, Bool.false_eq_true, if_false, hw, scalar_plain hx hc] at h
  split at h
  · next n json hn hj =>
    cases hn
    rw [updAt_walk (f := (·.setValue x.render)) path hw] at h
    unfold finish at h
    split at h
    · next core e' hr =>
      cases h
      constructor
      · rw [get_valueAt hp]
        show (core.valueAt path).bind cleanValue = _
        rw [refresh_valueAt hr, valueAt_set_eq path hw]
        · show cleanValue x.render = _
          have := cleanValue_ok (l := []) (r := []) (v := x) rfl hx rfl
          simpa using this
        · intro hm
          obtain ⟨i, -, h2, h3⟩ := prefixes_prefix hm
          have := congrArg List.length h3
          simp only [List.length_take] at this
          have : 0 < path.length := List.length_pos_iff.2 hp
          omega
      · intro q hq
        have hqn : q ≠ [] := fun e => hq (e ▸ List.nil_prefix)
        rw [get_valueAt hqn, get_valueAt hqn]
        show (core.valueAt q).bind cleanValue = _
        rw [refresh_valueAt hr, valueAt_set_ne path q _ (fun e => hq (e ▸ List.prefix_refl _))]
        intro hm
        obtain ⟨i, -, -, rfl⟩ := prefixes_prefix hm
        exact hq (List.take_prefix _ _)
    · cases h
  · cases h

/-- Paths below the changed one are among those that keep their value: after a scalar has
replaced a container the old entries can still be read, though the text has lost them. -/
theorem C55_stale : session (str "{\"a\":{\"b\":1}}") (·.Set (str "5") [str "a"])
      (fun p => (p.json, p.Get [str "a", str "b"], Get p.json [str "a", str "b"])) =
    some ((str "{\"a\":5}", .ok (str "1"), .err (.keyNotFound (str "a"))), none) := by decide +kernel

/-- The hypotheses of `C55_get_after_set` are met in the sample document. -/
example : ∃ p p' : Parser, Parse Sample.doc.render = .ok p ∧ p'.Get Sample.toTrue = .ok (str "7") ∧
    p'.Get Sample.toStr = p.Get Sample.toStr ∧ p'.Get Sample.toStr = .ok (str "x]\\\\") := by
  have h := session_some (look := fun p => p.Get Sample.toStr) (show session Sample.doc.render (·.Set (Json.lit (str "7")).render Sample.toTrue)
    (fun p => p.Get Sample.toStr) = some (.ok (str "x]\\\\"), none) by decide +kernel)
  obtain ⟨p, p', h1, h2, h3⟩ := h
  cases hw : p.core.walk Sample.toTrue with
  | panic => rw [Parser.Set, hw] at h2; cases h2
  | err e => rw [Parser.Set, hw] at h2; cases h2
  | ok nd =>
    have := C55_get_after_set (x := .lit (str "7")) (by simp [Sample.toTrue]) (by decide +kernel) rfl hw h2
    exact ⟨p, p', h1, this.1, this.2 _ (by decide +kernel), h3⟩

/-- Non-trivial calls of the three mutators. -/
example : session Sample.doc.render (·.Set (str "7") Sample.toTrue) Parser.json =
      some (str "\n{\"a\": 1, \"b\\\"]\" :[ 10 ,\"x]\\\\\" , {\"k\":null}, [] ],\"a\":2,\"o\":{ \"p\":{\"q\":7 }, \"r\":-1.5e3}} ", none) ∧
    session (str "{\"a\":{\"b\":1,\"c\":2}}") (·.Delete [str "a", str "b"]) Parser.json = some (str "{\"a\":{\"c\":2}}", none) ∧
    session (str "{\"a\":{\"b\":1,\"c\":2}}") (·.SetKey (str "d") [str "a", str "b"]) Parser.json = some (str "{\"a\":{\"d\":1,\"c\":2}}", none) := by
  decide +kernel

/-! ### C56 -/

/-- For every parser state: when `Parser.Add` to a nested array reports success the text is what
`Add` gives. -/
theorem C56_nested_add_partial {p p' : Parser} {v : Bytes} {path : List Bytes} (hp : path ≠ [])
    (h : p.Add v path = .done p' none) : Add p.json v path = .done p'.json none := by
  have hl : (path.length == 0) = false := by cases path <;> simp_all
  unfold Parser.Add at h
  simp only [hl, Bool.false_eq_true, if_false] at h
  repeat' split at h
  all_goals first | (cases h; done) | skip
  all_goals (rw [finish_json h]; assumption)

/-- The same for `Parser.AddKeyValue` to a nested object. -/
theorem C56_nested_addKeyValue_partial {p p' : Parser} {k v : Bytes} {path : List Bytes} (hp : path ≠ [])
    (h : p.AddKeyValue k v path = .done p' none) : AddKeyValue p.json k (some v) path = .done p'.json none := by
  have hl : (path.length == 0) = false := by cases path <;> simp_all
  unfold Parser.AddKeyValue at h
  simp only [hl, Bool.false_eq_true, if_false] at h
  repeat' split at h
  all_goals first | (cases h; done) | skip
  all_goals (rw [finish_json h]; assumption)

theorem beforeLast_ok (a t : Bytes) (c : UInt8) : beforeLast (a ++ [c]) t = .ok (a ++ (t ++ [c])) :=
  replace_split (m := []) (by simp) (by simp) (by simp)

theorem enclosed_ok {w : Json} (hc : w.isContainer) (e : Err) : enclosed w.render (opnOf w) (clsOf w) e = none := by
  have h2 := container_len hc
  unfold enclosed
  rw [if_pos h2, render_container hc, ← List.cons_append, List.getLast?_concat]
  simp

theorem opens_iff {v : Json} (hv : v.wf) : opensContainer v.render = v.isContainer := by
  cases hc : v.isContainer with
  | false => exact scalar_plain hv hc
  | true =>
    have h2 := container_len hc
    have : opnOf v = 91 ∨ opnOf v = 123 := by cases v <;> simp [opnOf]
    unfold opensContainer
    rw [render_container hc] at h2 ⊢
    rcases this with h | h <;> simp [h] at h2 ⊢

theorem pCore_value {v : Json} (hv : v.wf) (hc : v.isContainer) (n : Node) : ∃ m, pCore v.render n = .ok m := by
  have := pCore_ok (d := ⟨[], v, []⟩) (by simp [Doc.wf, hv, Ws]) hc n
  simp only [Doc.render, List.nil_append, List.append_nil] at this
  exact ⟨_, this⟩

theorem inner_ne {w : Json} (hw : w.wf) (h : ents w ≠ []) : inner w ≠ [] := by
  intro he
  unfold inner at he
  cases w with
  | lit _ => exact h rfl
  | str _ => exact h rfl
  | arr g es =>
    cases es with
    | nil => exact h rfl
    | cons e es =>
      rw [wf_arr, wfElems_cons] at hw
      have := render_ne_nil hw.2.2.1
      simp [ents, renderEnt, elemEnt, this] at he
  | obj g ms =>
    cases ms with
    | nil => exact h rfl
    | cons m ms => simp [ents, renderEnt, memEnt, memText] at he

theorem len_two {w : Json} (hw : w.wf) (hc : w.isContainer) : (w.render.length == 2) = decide (ents w = [] ∧ gapOf w = []) := by
  rw [render_container hc]
  by_cases h : ents w = []
  · have : inner w = gapOf w := by simp [inner, h]
    rw [this]
    cases gapOf w <;> simp [h]
  · have := inner_ne hw h
    cases hi : inner w <;> simp_all

/-- `Parser.Add` to the root array, for every parser state whose text is an array without
whitespace around it: the comma is left out only when the text is `[]` and the value a
container. -/
theorem C56_root_add_exact {p : Parser} {g : Text} {es : List (Elem Json)} {v : Json} (hw : (Json.arr g es).wf) (hv : v.wf)
    (hj : p.json = (Json.arr g es).render) :
    ∃ p', p.Add v.render [] = .done p' none ∧
      p'.json = 91 :: (inner (.arr g es) ++ ((if v.isContainer ∧ es = [] ∧ g = [] then [] else [44]) ++ (v.render ++ [93]))) := by
  have h0 : (v.render.length == 0) = false := by
    have := render_ne_nil hv
    cases h : v.render <;> simp_all
  have hr : (Json.arr g es).render = (91 :: inner (.arr g es)) ++ [93] := render_container rfl
  have he := enclosed_ok (w := .arr g es) rfl .arrayExpected
  have hlen := len_two hw rfl
  have hents : ents (.arr g es) = [] ↔ es = [] := by simp [ents]
  simp only [opnOf, clsOf, gapOf, hents] at he hlen
  have hn : ∃ n, (if v.isContainer then (pCore v.render (.mk [] [] [])).map fun n => (n.setLabel (itoa p.core.down.length)).setValue v.render
      else .ok (.mk (itoa p.core.down.length) v.render [])) = .ok n := by
    cases hc : v.isContainer with
    | false => exact ⟨_, rfl⟩
    | true => obtain ⟨m, hm⟩ := pCore_value hv hc (.mk [] [] []); rw [hm]; exact ⟨_, rfl⟩
  obtain ⟨n, hn⟩ := hn
  simp only [Parser.Add, h0, Bool.false_eq_true, if_false, Parser.Get, List.length_nil, beq_self_eq_true, if_true, Node.walk, hj, he,
    opens_iff hv, hn]
  rw [hlen, hr, beforeLast_ok]
  refine ⟨_, rfl, ?_⟩
  cases v.isContainer <;> by_cases h : es = [] ∧ g = [] <;> simp [h]

/-- So the root array gives what `Add` gives unless it is empty; an empty one works only for
`[]` and a container.  Missing: those, and whitespace around the root (`C56_fails`). -/
theorem C56_root_add_partial {p : Parser} {g : Text} {es : List (Elem Json)} {v : Json} (hw : (Json.arr g es).wf) (hv : v.wf)
    (hj : p.json = (Json.arr g es).render) (hne : es ≠ [] ∨ g = [] ∧ v.isContainer) :
    ∃ p', p.Add v.render [] = .done p' none ∧ Add p.json v.render [] = .done p'.json none := by
  obtain ⟨p', h1, h2⟩ := C56_root_add_exact hw hv hj
  refine ⟨p', h1, ?_⟩
  have ha := add_ok (d := ⟨[], .arr g es, []⟩) (p := []) (by simp [Doc.wf, hw, Ws]) rfl v
  simp only [Doc.render, List.nil_append, List.append_nil, Doc.set, Json.set, Json.upd] at ha
  rw [hj, ha, h2, addEnt_render (w := .arr g es) rfl (x := .elem v) (show Json.kind _ = _ from rfl)]
  have hents : ents (.arr g es) = [] ↔ es = [] := by simp [ents]
  simp only [opnOf, clsOf, hents, Entry.text]
  by_cases h : es = []
  · rcases hne with hne | ⟨rfl, hc⟩
    · exact absurd h hne
    · simp [h, hc]
  · simp [h]

/-- `Parser.AddKeyValue` to the root object: the comma is left out only when the text is `{}`,
the value a container and the key two bytes or longer. -/
theorem C56_root_addKeyValue_exact {p : Parser} {g k : Text} {ms : List (Member Json)} {v : Json} (hw : (Json.obj g ms).wf) (hv : v.wf)
    (hk : k ≠ []) (hnew : ∀ d ∈ p.core.down, d.label ≠ k) (hj : p.json = (Json.obj g ms).render) :
    ∃ p', p.AddKeyValue k v.render [] = .done p' none ∧
      p'.json = 123 :: (inner (.obj g ms) ++ ((if k.length ≥ 2 ∧ v.isContainer ∧ ms = [] ∧ g = [] then [] else [44]) ++
        (memberText k v.render ++ [125]))) := by
  have h0 : (k.length == 0) = false := by cases k <;> simp_all
  have hany : p.core.down.any (fun d => d.label == k) = false := by
    rw [List.any_eq_false]; intro d hd; simpa using hnew d hd
  have hr : (Json.obj g ms).render = (123 :: inner (.obj g ms)) ++ [125] := render_container rfl
  have he := enclosed_ok (w := .obj g ms) rfl .objectExpected
  have hlen := len_two hw rfl
  have hents : ents (.obj g ms) = [] ↔ ms = [] := by simp [ents]
  simp only [opnOf, clsOf, gapOf, hents] at he hlen
  have hcon : (if k.length ≥ 2 then (idx v.render 0).map fun c => c == 91 || c == 123 else .ok false) =
      .ok (decide (k.length ≥ 2) && v.isContainer) := by
    by_cases hk2 : k.length ≥ 2
    · simp only [hk2, if_true, decide_true, Bool.true_and]
      have ho := opens_iff hv
      cases hvr : v.render with
      | nil => exact absurd hvr (render_ne_nil hv)
      | cons c t =>
        have hi : idx (c :: t) 0 = .ok c := idx_nat (i := 0) rfl
        rw [hi, ← ho, hvr]
        show Out.ok _ = Out.ok _
        cases t with
        | nil =>
          -- a one-byte value is a scalar
          have hc : v.isContainer = false := by
            cases hc : v.isContainer with
            | false => rfl
            | true => have := container_len hc; rw [hvr] at this; simp at this
          have hb : c ≠ 91 ∧ c ≠ 123 := by
            cases v with
            | lit u =>
              simp only [Json.render] at hvr
              subst hvr
              simp only [Json.wf, List.all_cons, Bool.and_eq_true] at hv
              constructor <;> rintro rfl <;> exact absurd hv.2.1 (by decide)
            | str u => simp only [Json.render] at hvr; have := congrArg List.length hvr; simp at this
            | arr _ _ => simp [Json.isContainer] at hc
            | obj _ _ => simp [Json.isContainer] at hc
          simp [opensContainer, hb.1, hb.2]
        | cons b t => simp [opensContainer]
    · simp [hk2]
  simp only [Parser.AddKeyValue, h0, Bool.false_eq_true, if_false, Parser.Get, List.length_nil, beq_self_eq_true, if_true, hany, hj, he,
    hcon]
  cases hb : (decide (k.length ≥ 2) && v.isContainer) with
  | false =>
    have hc : ¬ (k.length ≥ 2 ∧ v.isContainer ∧ ms = [] ∧ g = []) := fun h => by simp [h.1, h.2.1] at hb
    simp only [hlen, Bool.false_and, Bool.false_eq_true, if_false, if_neg hc]
    rw [hr, beforeLast_ok]
    exact ⟨_, rfl, by simp⟩
  | true =>
    simp only [Bool.and_eq_true, decide_eq_true_eq] at hb
    obtain ⟨m, hm⟩ := pCore_value hv hb.2 (.mk [] [] [])
    simp only [hm, Out.map, hlen, Bool.true_and, decide_eq_true_eq]
    rw [hr, beforeLast_ok]
    refine ⟨_, rfl, ?_⟩
    by_cases h : ms = [] ∧ g = [] <;> simp [h, hb]

/-- The root object gives what `AddKeyValue` gives unless it is empty.  Missing: an empty one
(other than `{}` with a container and a key of two bytes or more), and whitespace around the
root (`C56_fails`); `Doc.clear` is what `AddKeyValue` itself needs to see that the key is new
(`C21_fails`). -/
theorem C56_root_addKeyValue_partial {p : Parser} {g k : Text} {ms : List (Member Json)} {v : Json} (hw : (Json.obj g ms).wf) (hv : v.wf)
    (hk : k ≠ []) (hnew : ∀ d ∈ p.core.down, d.label ≠ k) (hj : p.json = (Json.obj g ms).render) (hms : ∀ m ∈ ms, m.key ≠ k)
    (hok : Doc.clear ⟨[], .obj g ms, []⟩ [] k) (hne : ms ≠ [] ∨ g = [] ∧ v.isContainer ∧ k.length ≥ 2) :
    ∃ p', p.AddKeyValue k v.render [] = .done p' none ∧ AddKeyValue p.json k (some v.render) [] = .done p'.json none := by
  obtain ⟨p', h1, h2⟩ := C56_root_addKeyValue_exact hw hv hk hnew hj
  refine ⟨p', h1, ?_⟩
  have hd : (⟨[], .obj g ms, []⟩ : Doc).wf := by simp [Doc.wf, hw, Ws]
  have hmiss := core_clear (p := []) (qs := []) hd rfl (memberIdx_absent hms) hok false
  have ha := addkv_ok (p := []) (k := k) hd rfl (.inr ⟨_, hmiss, errEqual_keyNotFound k⟩) v
  simp only [Doc.render, List.nil_append, List.append_nil, Doc.set, Json.set, Json.upd] at ha
  rw [hj, ha, h2, addEnt_render (w := .obj g ms) rfl (x := .member k [] [] v) (show Json.kind _ = _ from rfl)]
  have hents : ents (.obj g ms) = [] ↔ ms = [] := by simp [ents]
  simp only [opnOf, clsOf, hents, Entry.text, memberText]
  by_cases h : ms = []
  · rcases hne with hne | ⟨rfl, hc, h2⟩
    · exact absurd h hne
    · simp [h, hc, h2]
  · simp [h]

/-- The comma before the first entry: an empty array and an empty object at the root become
invalid; whitespace around the root array makes `Parser.Add` refuse it. -/
theorem C56_fails : session (str "[]") (·.Add (str "5") []) Parser.json = some (str "[,5]", none) ∧
    Add (str "[]") (str "5") [] = .done (str "[5]") none ∧
    session (str "{}") (·.AddKeyValue (str "a") (str "1") []) Parser.json = some (str "{,\"a\":1}", none) ∧
    AddKeyValue (str "{}") (str "a") (some (str "1")) [] = .done (str "{\"a\":1}") none ∧
    session (str "[1] ") (·.Add (str "5") []) Parser.json = some (str "[1] ", some .arrayExpected) ∧
    Add (str "[1] ") (str "5") [] = .done (str "[1,5] ") none := by decide +kernel

/-- Nested and root calls that succeed. -/
example : session (str "{\"a\":[1,[2]]}") (·.Add (str "{\"b\":3}") [str "a"]) Parser.json = some (str "{\"a\":[1,[2],{\"b\":3}]}", none) ∧
    session (str "{\"a\":{\"b\":1}}") (·.AddKeyValue (str "c") (str "[2]") [str "a"]) Parser.json = some (str "{\"a\":{\"b\":1,\"c\":[2]}}", none) ∧
    session (str "[1, 2]") (·.Add (str "[3]") []) Parser.json = some (str "[1, 2,[3]]", none) ∧
    session (str "{\"b\":1}") (·.AddKeyValue (str "a") (str "2") []) Parser.json = some (str "{\"b\":1,\"a\":2}", none) := by
  decide +kernel

end Jin
