import Verif.Props.ParserSync
import Verif.Props.Add
import Verif.Proof.ParserDive
/-!
# Props.ParserMore — C65 to C69: the other methods of `Parser`
-/

namespace Jin
open Spec

/-! ### C65 -/

/-- **C65 (partial)** After `Parse` and any number of the calls of `PCall.ok`, each typed getter of
`Parser` gives, for every path that the tree resolves, what the typed getter gives on the text.
Missing: the other calls (`C64_fails`). -/
theorem C65_typed_partial {F : Type} (fl : FloatLib F) {p : Parser} {d : Doc} {path : List Text} {nd : Node} (h : Reached p d)
    (hb : (d.render.length : Int) ≤ 9223372036854775807) (hw : p.core.walk path = .ok nd) :
    p.GetString path = GetString p.json path ∧ p.GetInt path = GetInt p.json path ∧ p.GetFloat fl path = GetFloat fl p.json path ∧
    p.GetBool path = GetBool p.json path ∧ p.GetStringArray path = GetStringArray p.json path ∧
    p.GetIntArray path = GetIntArray p.json path ∧ p.GetFloatArray fl path = GetFloatArray fl p.json path ∧
    p.GetBoolArray path = GetBoolArray p.json path := by
  have hg : p.Get path = GetString p.json path := (C64_session_partial h).2.2 hb path nd hw
  refine ⟨hg, ?_, ?_, ?_, ?_, ?_, ?_, ?_⟩
  · rw [Parser.GetInt, hg]; rfl
  · rw [Parser.GetFloat, hg]; rfl
  · rw [Parser.GetBool, hg]; rfl
  · rw [Parser.GetStringArray, hg]; rfl
  · rw [Parser.GetIntArray, hg]; rfl
  · rw [Parser.GetFloatArray, Parser.GetString, hg]; rfl
  · rw [Parser.GetBoolArray, Parser.GetString, hg]; rfl

/-- A text for the examples. -/
def typedText : Bytes := str "{\"a\":[1, 22 ,3],\"b\":{\"c\":-7,\"t\":true},\"s\":[\"x\", \"y]\"],\"f\":[true,false ]}"

/-- Values read from a parser after a change. -/
example : session typedText (·.SetInt 9 [str "b", str "c"]) (fun p => (p.GetInt [str "b", str "c"], p.GetBool [str "b", str "t"], p.GetIntArray [str "a"])) =
      some ((.ok 9, .ok true, .ok [1, 22, 3]), none) ∧
    session typedText (·.SetInt 9 [str "b", str "c"]) (·.GetStringArray [str "s"]) = some (.ok [str "x", str "y]"], none) ∧
    session typedText (·.SetInt 9 [str "b", str "c"]) (·.GetBoolArray [str "f"]) = some (.ok [true, false], none) ∧
    session typedText (·.SetInt 9 [str "b", str "c"]) (·.GetInt [str "a"]) = some (.err (.integerParse (str "[1, 22 ,3]")), none) := by
  refine ⟨?_, ?_, ?_, ?_⟩ <;> decide +kernel

/-! ### C66 -/

/-- **C66 (partial)** After `Parse` and any number of the calls of `PCall.ok`, `GetNew` of a path
below the root gives the text of the value there, up to whitespace between its tokens.  Missing:
the root (`C66_root_partial`, `C66_fails`) and the other calls. -/
theorem C66_getNew_partial {p : Parser} {d : Doc} {path : List Text} {w : Json} (h : Reached p d) (hp : path ≠ [])
    (hg : d.get? path = some w) {nd : Node} (hw : p.core.walk path = .ok nd) :
    ∃ w' : Json, p.GetNew path = .ok w'.content ∧ w'.wf ∧ w'.strip = w.strip := by
  have hs := session_sync h
  have hwf : w.wf := get_wf path (doc_wf.1 hs.wf).2.1 hg
  have ha := walk_agree path hs.kids hg hp hw
  simp only [Parser.GetNew, hw]
  by_cases hd : nd.down = []
  · exact ⟨w, by simp [hd, agree_clean hwf ha], hwf, rfl⟩
  · obtain ⟨w', h1, h2, h3⟩ := dive_ok w nd ha hwf hd
    refine ⟨w', ?_, h2, h3⟩
    have : nd.down.isEmpty = false := by simpa using hd
    simp only [this, Bool.false_eq_true, if_false, h1]
    have := cleanValue_ok (l := []) (r := []) (v := w') rfl h2 rfl
    simpa using this

theorem updAt_value {f : Node → Node} (hf : ∀ n, (f n).value = n.value) (n : Node) (q : List Bytes) : (n.updAt f q).value = n.value := by
  cases q with
  | nil => exact hf n
  | cons p ps => rw [Node.updAt, setDown_value]

theorem updAt_value_ne {f : Node → Node} (n : Node) {q : List Bytes} (hq : q ≠ []) : (n.updAt f q).value = n.value := by
  cases q with
  | nil => exact absurd rfl hq
  | cons p ps => rw [Node.updAt, setDown_value]

theorem refresh_value {json : Bytes} : ∀ {qs : List (List Bytes)} {n n' : Node} {e : Option Err},
    refresh json qs n = .ok (n', e) → [] ∉ qs → n'.value = n.value
  | [], n, n', e, h, _ => by cases h; rfl
  | q :: qs, n, n', e, h, hr => by
    simp only [List.mem_cons, not_or] at hr
    have hq : q ≠ [] := fun e => hr.1 e.symm
    rw [refresh] at h
    split at h
    · cases h
    · cases h; exact updAt_value_ne n hq
    · rw [refresh_value h hr.2]; exact updAt_value_ne n hq

theorem refreshQuiet_value {json : Bytes} : ∀ {qs : List (List Bytes)} {n n' : Node},
    refreshQuiet json qs n = .ok n' → [] ∉ qs → n'.value = n.value
  | [], n, n', h, _ => by cases h; rfl
  | q :: qs, n, n', h, hr => by
    simp only [List.mem_cons, not_or] at hr
    have hq : q ≠ [] := fun e => hr.1 e.symm
    rw [refreshQuiet] at h
    split at h
    · cases h
    · rw [refreshQuiet_value h hr.2]; exact updAt_value_ne n hq
    · rw [refreshQuiet_value h hr.2]; exact updAt_value_ne n hq

theorem prefixes_nil {path : List Bytes} {m c : Nat} (hm : 1 ≤ m) (hp : path ≠ []) : [] ∉ prefixes path m c := by
  intro h
  simp only [prefixes, List.mem_reverse, List.mem_map, List.mem_range'_1] at h
  obtain ⟨i, hi, h⟩ := h
  cases path with
  | nil => exact hp rfl
  | cons p ps => cases i with
    | zero => omega
    | succ i => simp at h

theorem finish_value {json : Bytes} {n : Node} {path : List Bytes} {m c : Nat} {p' : Parser} {e : Option Err} (hm : 1 ≤ m) (hp : path ≠ [])
    (h : finish json n (prefixes path m c) = .done p' e) : p'.core.value = n.value := by
  unfold finish at h
  split at h
  · next hr => cases h; exact refresh_value hr (prefixes_nil hm hp)
  · cases h

/-- No call changes the value of the root node. -/
theorem call_value {p p' : Parser} {c : PCall} {e : Option Err} (h : c.run p = .done p' e) : p'.core.value = p.core.value := by
  cases c with
  | set path x =>
    simp only [PCall.run, Parser.Set] at h
    split at h
    · cases h; rfl
    · next hp =>
      have hp : path ≠ [] := by rintro rfl; exact hp rfl
      split at h
      · cases h
      · cases h; rfl
      · split at h
        · rw [finish_value (by omega) hp h, updAt_value_ne _ hp]
        · cases h
  | setKey path q new =>
    have hp : path ++ [q] ≠ [] := by simp
    simp only [PCall.run, Parser.SetKey] at h
    repeat' split at h
    all_goals first | (cases h; done) | (cases h; rfl) | skip
    next hr =>
      cases h
      rw [refreshQuiet_value hr (prefixes_nil (by omega) hp), updAt_value_ne _ hp]
  | delete path q =>
    have hp : path ++ [q] ≠ [] := by simp
    simp only [PCall.run, Parser.Delete] at h
    repeat' split at h
    all_goals first | (cases h; done) | (cases h; rfl) | skip
    · cases h; exact updAt_value (fun n => by simp [Node.deAttach]) _ _
    · rw [finish_value (by omega) hp h]; exact updAt_value (fun n => by simp [Node.deAttach]) _ _
  | add path v =>
    simp only [PCall.run, Parser.Add] at h
    repeat' split at h
    all_goals first | (cases h; done) | (cases h; rfl) | skip
    all_goals first | (cases h; simp [Node.addChild]; done) | skip
    all_goals first | (cases h; exact updAt_value (fun n => by simp [Node.addChild]) _ _) | skip
    all_goals
      rename_i hp _ _ _ _
      have hp : path ≠ [] := by rintro rfl; exact hp rfl
      rw [finish_value (by omega) hp h]; exact updAt_value (fun n => by simp [Node.addChild]) _ _
  | addKeyValue path k v =>
    simp only [PCall.run, Parser.AddKeyValue] at h
    repeat' split at h
    all_goals first | (cases h; done) | (cases h; rfl) | skip
    all_goals first | (cases h; simp [Node.addChild]; done) | skip
    all_goals first | (cases h; exact updAt_value (fun n => by simp [Node.addChild]) _ _) | skip
    rename_i hp _ _ _ _ _ _ _ _ _ _ _ _
    have hp : path ≠ [] := by rintro rfl; exact hp rfl
    rw [finish_value (by omega) hp h]; exact updAt_value (fun n => by simp [Node.addChild]) _ _

theorem updChild_kind (v : Json) (q : Text) (g : Json → Json) : (v.updChild q g).kind = v.kind := by
  cases v <;> simp only [Json.updChild] <;> first | rfl | (split <;> rfl)

theorem set_kind {d : Doc} {path : List Text} {u w : Json} (h : d.get? path = some u) (hk : path = [] → w.kind = u.kind) :
    (d.set path w).root.kind = d.root.kind := by
  cases path with
  | nil =>
    have : d.root = u := by simpa [Doc.get?, Json.get?] using h
    rw [this]; exact hk rfl
  | cons p ps =>
    show (d.root.upd (fun _ => w) (p :: ps)).kind = _
    rw [Json.upd]
    exact updChild_kind _ _ _

theorem norm_kind (v : Json) : v.norm.kind = v.kind := by cases v <;> rfl

theorem gives_kind {d d' : Doc} {c : PCall} (hc : c.ok d) (h : c.gives d d') : d'.root.kind = d.root.kind := by
  cases c with
  | set path x =>
    obtain ⟨hp, -, -, w, hw, -⟩ := hc
    cases h
    exact set_kind hw.1 (fun e => absurd e hp)
  | setKey path q new =>
    obtain ⟨g, ms, n, h1, -, rfl⟩ := h
    exact set_kind h1 (fun _ => rfl)
  | delete path q =>
    obtain ⟨u, n, w', h1, -, rfl, h2, -⟩ := h
    exact set_kind h1 (fun _ => h2)
  | add path v =>
    obtain ⟨u, w', h1, rfl, h2, -⟩ := h
    obtain ⟨-, -, g, es, h3, -⟩ := hc
    have h3 := h1.symm.trans h3.1
    cases h3
    exact set_kind h1 (fun _ => h2)
  | addKeyValue path k v =>
    obtain ⟨u, w', h1, rfl, h2, -⟩ := h
    obtain ⟨-, -, -, -, g, ms, h3, -⟩ := hc
    have h3 := h1.symm.trans h3.1
    cases h3
    exact set_kind h1 (fun _ => h2)

/-- The first byte of the value of the root node is the opening bracket of the document. -/
theorem reached_head {p : Parser} {d : Doc} (h : Reached p d) :
    p.core.value.head? = some (if d.root.kind = .arr then 91 else 123) := by
  induction h with
  | @parse p d hd hc hp =>
    rw [Parse_ok hd hc] at hp
    cases hp
    cases hr : d.root with
    | lit _ => rw [hr] at hc; cases hc
    | str _ => rw [hr] at hc; cases hc
    | arr g es => simp [rootNode, nodeOf, Node.value, Json.render, Json.kind]
    | obj g ms => simp [rootNode, nodeOf, Node.value, Json.render, Json.kind]
  | @call p p' d d' c e hr hc hrun hd' hj ih =>
    obtain ⟨p2, d2, h1, h0, h2⟩ := call_ok (session_sync hr) hc
    rw [hrun] at h1
    cases h1
    have hk : d'.root.kind = d.root.kind := by
      obtain ⟨-, hn, -⟩ := doc_unique hd' h2.wf (hj.symm.trans h2.json)
      rw [← norm_kind, hn, norm_kind, gives_kind hc h0]
    rw [call_value hrun, ih, hk]

theorem diveList_value (v v' : Bytes) (c : UInt8) : ∀ ds : List Node, diveList v c ds = diveList v' c ds
  | [] => rfl
  | d :: ds => by rw [diveList_cons, diveList_cons, diveList_value v v' c ds]

theorem dive_head {n m : Node} {c : UInt8} (hn : n.value.head? = some c) (hm : m.value.head? = some c) (h : n.down = m.down) : n.dive = m.dive := by
  cases n with
  | mk l v dn =>
    cases m with
    | mk l' v' dn' =>
      simp only [Node.value, Node.down] at hn hm h
      subst h
      have hi : ∀ {t : Bytes}, t.head? = some c → idx t 0 = .ok c := by
        intro t ht
        cases t with
        | nil => cases ht
        | cons a t => cases ht; exact idx_nat (i := 0) rfl
      rw [Node.dive, Node.dive, hi hn, hi hm]
      show (diveList v c dn >>= fun body => _) = (diveList v' c dn >>= fun body => _)
      rw [diveList_value v v']

/-- **C66 (partial)** The same for the whole document, as long as the root has an entry in the
tree.  Missing: a root that has lost its last entry (`C66_fails`). -/
theorem C66_root_partial {p : Parser} {d : Doc} (h : Reached p d) (hd : p.core.down ≠ []) :
    ∃ w' : Json, p.GetNew [] = .ok w'.content ∧ w'.wf ∧ w'.strip = d.root.strip := by
  have hs := session_sync h
  have hwf := (doc_wf.1 hs.wf).2.1
  have ha : Agree (p.core.setValue d.root.render) d.root :=
    ⟨⟨[], [], rfl, rfl, by simp, fun _ => ⟨rfl, rfl⟩⟩, by simpa using hs.kids⟩
  obtain ⟨w', h1, h2, h3⟩ := dive_ok d.root _ ha hwf (by simpa using hd)
  refine ⟨w', ?_, h2, h3⟩
  have he : p.core.dive = (p.core.setValue d.root.render).dive := by
    refine dive_head (reached_head h) ?_ (by simp)
    have hc := hs.container
    cases hr : d.root with
    | lit _ => rw [hr] at hc; cases hc
    | str _ => rw [hr] at hc; cases hc
    | arr g es => simp [Json.render, Json.kind]
    | obj g ms => simp [Json.render, Json.kind]
  have : p.core.down.isEmpty = false := by simpa using hd
  simp only [Parser.GetNew, Node.walk, this, Bool.false_eq_true, if_false, he, h1]
  have := cleanValue_ok (l := []) (r := []) (v := w') rfl h2 rfl
  simpa using this

/-- The value of the root node is never renewed: an object that has lost its only member still
shows it; an array of one scalar that was set shows the old one. -/
theorem C66_fails :
    session (str "{\"a\":1}") (·.Delete [str "a"]) (fun p => (p.json, p.GetNew [])) = some ((str "{}", .ok (str "{\"a\":1}")), none) ∧
    session (str "[1]") (·.Add (str "2") []) (fun p => (p.json, p.GetNew [])) = some ((str "[1,2]", .ok (str "[2]")), none) := by
  decide +kernel

/-- `GetNew` on the sample document: whitespace between the tokens goes, that around scalars stays. -/
example : session Sample.doc.render (·.Set (str "7") Sample.toTrue) (·.GetNew Sample.toObj) =
      some (.ok (str "{\"p\":{\"q\":7},\"r\":-1.5e3}"), none) ∧
    session (str "[ 1 ,{ \"a\" : 2 } ]") (·.Set (str "7") [str "0"]) (·.GetNew []) = some (.ok (str "[7,{\"a\": 2 }]"), none) := by
  decide +kernel

/-! ### C67 -/

theorem valueAt_set_self {v : Bytes} : ∀ (q : List Bytes) (n : Node),
    (n.updAt (·.setValue v) q).valueAt q = (n.valueAt q).map fun _ => v
  | [], n => by simp [Node.updAt, Node.valueAt, Node.walk, Out.map]
  | b :: q, n => by
    simp only [Node.valueAt, Node.updAt, Node.walk, setDown_down]
    rw [find_replaceFirst (fun d => updAt_label (by simp) d q)]
    cases n.down.find? (fun d => d.label == b) with
    | none => rfl
    | some d =>
      simp only [Option.map_some, if_true]
      exact valueAt_set_self q d

/-- Two trees with the same value at every path. -/
def Alike (n m : Node) : Prop := ∀ q, n.valueAt q = m.valueAt q

theorem alike_fixAll (val : List Bytes → Bytes) : ∀ (qs : List (List Bytes)) {n m : Node}, Alike n m → Alike (fixAll val qs n) (fixAll val qs m)
  | [], _, _, h => h
  | q :: qs, n, m, h => alike_fixAll val qs fun r => by
    by_cases hr : r = q
    · subst hr; rw [valueAt_set_self, valueAt_set_self, h]
    · rw [valueAt_set_ne q r n hr, valueAt_set_ne q r m hr, h]

theorem alike_updAt {f g : Node → Node} (hf : ∀ n, (f n).label = n.label) (hg : ∀ n, (g n).label = n.label) : ∀ (path : List Bytes) {n nd : Node},
    n.walk path = .ok nd → Alike (f nd) (g nd) → Alike (n.updAt f path) (n.updAt g path)
  | [], n, nd, hw, h => by rw [Node.walk] at hw; cases hw; exact h
  | p :: ps, n, nd, hw, h => by
    rw [Node.walk] at hw
    cases hd : n.down.find? (fun d => d.label == p) with
    | none => rw [hd] at hw; cases hw
    | some d =>
      rw [hd] at hw
      have ih := alike_updAt hf hg ps hw h
      intro q
      cases q with
      | nil => simp [Node.valueAt, Node.updAt, Node.walk, Out.map]
      | cons a q =>
        simp only [Node.valueAt, Node.updAt, Node.walk, setDown_down]
        rw [find_replaceFirst (fun d => updAt_label hf d ps), find_replaceFirst (fun d => updAt_label hg d ps)]
        by_cases ha : p = a
        · subst ha
          simp only [hd, Option.map_some, if_true]
          exact ih q
        · simp only [ha, if_false]

/-- Where a child stands among others with other labels does not show. -/
theorem alike_move {n : Node} {A B : List Node} {x : Node} (hx : ∀ d ∈ B, d.label ≠ x.label) :
    Alike (n.setDown (A ++ B ++ [x])) (n.setDown (A ++ x :: B)) := by
  intro q
  cases q with
  | nil => simp [Node.valueAt, Node.walk, Out.map]
  | cons a q =>
    have : (A ++ B ++ [x]).find? (fun d => d.label == a) = (A ++ x :: B).find? (fun d => d.label == a) := by
      rw [List.append_assoc, List.find?_append, List.find?_append, List.find?_append, List.find?_cons]
      by_cases ha : x.label = a
      · have hB : B.find? (fun d => d.label == a) = none := by
          rw [List.find?_eq_none]; intro d hd; simpa [← ha] using hx d hd
        simp [ha, hB]
      · have : (x.label == a) = false := by simpa using ha
        simp [this]
    simp only [Node.valueAt, Node.walk, setDown_down, this]

/-- The nodes from a position on, their labels one higher. -/
theorem kidsL_relabel : ∀ {ds : List Node} {xs : List Entry} {k m : Nat}, KidsL k ds xs → (∀ x ∈ xs, x.key = none) → m ≤ xs.length →
    ∃ A B, relabel (k + m) k ds = A ++ B ∧ A.length = m ∧ KidsL k A (xs.take m) ∧ KidsL (k + m + 1) B (xs.drop m)
  | [], [], k, m, _, _, hm => by
    have : m = 0 := by simpa using hm
    subst this
    exact ⟨[], [], rfl, rfl, trivial, trivial⟩
  | d :: ds, x :: xs, k, m, h, hx, hm => by
    obtain ⟨h1, h2, h3⟩ := h
    cases m with
    | succ m =>
      obtain ⟨A, B, e1, e2, e3, e4⟩ := kidsL_relabel (m := m) h3 (fun y hy => hx y (by simp [hy])) (by simpa using hm)
      refine ⟨d :: A, B, ?_, by simp [e2], ?_, ?_⟩
      · rw [relabel, if_neg (by omega), show k + (m + 1) = k + 1 + m by omega, e1]; rfl
      · exact ⟨h1, h2, e3⟩
      · rw [show k + (m + 1) + 1 = k + 1 + m + 1 by omega]; exact e4
    | zero =>
      refine ⟨[], relabel (k + 0) k (d :: ds), rfl, rfl, trivial, ?_⟩
      -- every node from here on
      have all : ∀ {ds : List Node} {xs : List Entry} {i j : Nat}, j ≤ i → KidsL i ds xs → (∀ x ∈ xs, x.key = none) → KidsL (i + 1) (relabel j i ds) xs := by
        intro ds
        induction ds with
        | nil => intro xs i j _ h _; cases xs with
          | nil => trivial
          | cons _ _ => exact h.elim
        | cons d ds ih =>
          intro xs i j hj h hx
          cases xs with
          | nil => exact h.elim
          | cons x xs =>
            obtain ⟨h1, h2, h3⟩ := h
            rw [relabel, if_pos hj]
            refine ⟨?_, ?_, ih (by omega) h3 (fun y hy => hx y (by simp [hy]))⟩
            · cases d; simp [entLabel, hx x (by simp), Node.setLabel, Node.label]
            · cases d; exact h2
      exact all (by omega) ⟨h1, h2, h3⟩ hx
  | [], _ :: _, _, _, h, _, _ => h.elim
  | _ :: _, [], _, _, h, _, _ => h.elim

theorem kidsL_append : ∀ {A B : List Node} {xs ys : List Entry} {k : Nat}, KidsL k A xs → KidsL (k + xs.length) B ys → KidsL k (A ++ B) (xs ++ ys)
  | [], B, [], ys, k, _, h => h
  | d :: A, B, x :: xs, ys, k, h, h' =>
    ⟨h.1, h.2.1, kidsL_append h.2.2 (by rw [show k + 1 + xs.length = k + (x :: xs).length by simp; omega]; exact h')⟩
  | [], _, _ :: _, _, _, h, _ => h.elim
  | _ :: _, _, [], _, _, h, _ => h.elim

theorem relabel_twice (n : Nat) : ∀ (k : Nat) (ds : List Node), relabel n k (relabel n k ds) = relabel n k ds
  | _, [] => rfl
  | k, d :: ds => by
    simp only [relabel, relabel_twice n (k + 1) ds]
    split <;> first | (cases d; rfl) | rfl

theorem relabel_length (n : Nat) : ∀ (k : Nat) (ds : List Node), (relabel n k ds).length = ds.length
  | _, [] => rfl
  | k, d :: ds => by simp [relabel, relabel_length n (k + 1) ds]

theorem insertInto_ok {nd : Node} {n : Nat} (hn : n < nd.down.length) :
    nd.insertInto n = .ok (nd.setDown (relabel n 0 nd.down)) := by
  unfold Node.insertInto
  have h0 : (nd.down.length != 0) = true := bne_iff_ne.2 (by omega)
  rw [if_pos h0, if_neg (by omega), if_neg (by omega)]
  rfl

/-- **C67 (partial)** `Parser.Insert` of a scalar before an element of an array that is in step:
the call succeeds, the text is that of the document with the value in the array, and
`Parser.Get` of every path that a fresh `Parse` of that text would resolve gives the value that
the text has there.  Missing: containers, arrays of one scalar, a second `Insert`
(`C67_fails`) and the insertions of `C23_fails`. -/
theorem C67_insert_partial {p : Parser} {d : Doc} {path : List Text} {g : Text} {es : List (Elem Json)} {n : Nat} {v : Json} (hr : Reached p d)
    (hsh : Shown d path (.arr g es)) (hlone : lone es = false) (hn : n < es.length) (hb : (n : Int) ≤ 9223372036854775807) (hv : v.wf)
    (hvc : v.isContainer = false) (hok : n + 1 < es.length ∨ n = 0 ∨ ∃ e, es[n]? = some e ∧ e.l = [])
    (hroot : path = [] → d.lead = [] ∧ d.trail = []) :
    ∃ p' w', p.Insert n v.render path = .done p' none ∧ p'.json = (d.set path w').render ∧ (d.set path w').wf ∧ w'.kind = .arr ∧
      w'.entries = (Json.arr g es).entries.take n ++ .elem v :: (Json.arr g es).entries.drop n ∧
      (∀ q w, q ≠ [] → (d.set path w').root.treeGet? q = some w → p'.Get q = .ok w.content) ∧
      (((d.set path w').render.length : Int) ≤ 9223372036854775807 → ∀ q nd, p'.core.walk q = .ok nd → p'.Get q = Get p'.json q) := by
  have hs := session_sync hr
  have hg := hsh.1
  obtain ⟨nd, hw, -⟩ := C64_resolves hs path hsh.2
  have hwf : (Json.arr g es).wf := get_wf path (doc_wf.1 hs.wf).2.1 hg
  obtain ⟨w', e1, e2, e3, e4, -⟩ := C23_insert_partial d path g es n v hs.wf hg hn hb hv hok
  have hwf' : w'.wf := get_wf path (doc_wf.1 e2).2.1 (get_upd path hg (fun _ => w'))
  have hcw : w'.isContainer := by cases w' <;> simp_all [Json.kind, Json.isContainer]
  have hkl : KidsL 0 nd.down (Json.arr g es).entries := by
    have := walk_kids hs hg hw
    rw [Kids] at this
    rcases this with ⟨h, -⟩ | h
    · rw [hlone] at h; cases h
    · exact kidsE_iff.1 h
  have hlen : nd.down.length = es.length := by rw [kidsL_length hkl]; simp [Json.entries]
  obtain ⟨A, B, a1, a2, a3, a4⟩ := kidsL_relabel (m := n) hkl (by simp [Json.entries, Entry.key]) (by simp [Json.entries]; omega)
  rw [Nat.zero_add] at a1 a4
  let x : Node := .mk (itoa n) v.render []
  have hx : Agree x v := ⟨⟨[], [], rfl, rfl, by simp [x, Node.value], fun _ => ⟨rfl, rfl⟩⟩, by
    cases v <;> simp_all [Kids, Json.isContainer, Node.down, x]⟩
  have hsort : KidsL 0 (A ++ x :: B) w'.entries := by
    rw [e4]
    have htl : ((Json.arr g es).entries.take n).length = n := by simp [Json.entries]; omega
    refine kidsL_append a3 ?_
    rw [htl, Nat.zero_add]
    exact ⟨rfl, hx, a4⟩
  have hB : ∀ b ∈ B, b.label ≠ x.label := by
    intro b hb' he
    obtain ⟨i, e, h1, h2⟩ := kidsL_label a4 hb'
    have hk : e.key = none := by
      have := List.mem_of_getElem? h1
      have := List.mem_of_mem_drop this
      simp only [Json.entries, List.mem_map] at this
      obtain ⟨y, -, rfl⟩ := this
      rfl
    rw [h2, entLabel, hk] at he
    have := itoa_inj he
    omega
  -- the nodes in order: a tree in step
  obtain ⟨s1, s2⟩ := sync_upd (f := fun u => u.setDown (A ++ x :: B)) (g := fun _ => w') (tgt := [[]]) (c := path.length) hs hg hw
    (by simp) (by simp) hwf' (fun _ => hcw) (.inr ⟨rfl, hcw, rfl, fun _ => kids_of_entries hcw (by simpa using hsort)⟩)
  have halike := alike_fixAll (textAt (d.upd (fun _ => w') path).root) (prefixes path 1 path.length)
    (alike_updAt (f := fun u => u.setDown (A ++ B ++ [x])) (g := fun u => u.setDown (A ++ x :: B)) (by simp) (by simp) path hw (alike_move hB))
  generalize hsrt : fixAll (textAt (d.upd (fun _ => w') path).root) (prefixes path 1 path.length)
    (p.core.updAt (fun u => u.setDown (A ++ x :: B)) path) = cs at halike s2
  generalize hact : fixAll (textAt (d.upd (fun _ => w') path).root) (prefixes path 1 path.length)
    (p.core.updAt (fun u => u.setDown (A ++ B ++ [x])) path) = ca at halike
  have hget : ∀ q, q ≠ [] → Parser.Get ⟨ca, (d.set path w').render⟩ q = Parser.Get ⟨cs, (d.set path w').render⟩ q := by
    intro q hq
    rw [get_valueAt hq, get_valueAt hq]
    show (ca.valueAt q).bind _ = (cs.valueAt q).bind _
    rw [halike q]
  refine ⟨⟨ca, (d.set path w').render⟩, w', ?_, rfl, e2, e3, e4, ?_, ?_⟩
  · have h0 : (v.render.length == 0) = false := by
      have := render_ne_nil hv
      cases h : v.render <;> simp_all
    have he := enclosed_ok (w := .arr g es) rfl .arrayExpected
    simp only [opnOf, clsOf] at he
    have hpg : p.Get path = .ok (Json.arr g es).render := by
      by_cases hp : path = []
      · subst hp
        obtain ⟨r1, r2⟩ := hroot rfl
        have hrt : d.root = .arr g es := by simpa [Doc.get?, Json.get?] using hg
        simp [Parser.Get, hs.json, Doc.render, r1, r2, hrt]
      · have hl : (path.length == 0) = false := by cases path <;> simp_all
        simp only [Parser.Get, hl, Bool.false_eq_true, if_false, hw]
        exact agree_clean hwf (walk_agree path hs.kids hg hp hw)
    have hi := insertInto_ok (nd := nd) (n := n) (by omega)
    simp only [Parser.Insert, h0, Bool.false_eq_true, if_false, hpg, hw, he, scalar_plain hv hvc, hi, hs.json, e1]
    by_cases hp : path = []
    · subst hp
      rw [Node.walk] at hw
      cases hw
      have hi2 := insertInto_ok (nd := p.core.setDown (relabel n 0 p.core.down)) (n := n) (by
        rw [setDown_down, relabel_length]; omega)
      rw [setDown_down, setDown_setDown, relabel_twice] at hi2
      simp only [List.length_nil, beq_self_eq_true, if_true, hi2]
      rw [← hact, a1]
      simp [Node.addChild, Node.setValue, fixAll, prefixes, Node.updAt, x]
    · have hl : (path.length == 0) = false := by cases path <;> simp_all
      simp only [hl, Bool.false_eq_true, if_false]
      have hu := updAt_walk (f := fun u => u.setDown (A ++ B ++ [x])) path hw
      rw [a1]
      have : ((nd.setDown (A ++ B)).addChild ((Node.mk (itoa n) [] []).setValue v.render)) = nd.setDown (A ++ B ++ [x]) := by
        simp [Node.addChild, Node.setValue, x]
      rw [this, hu]
      refine (finish_ok s1).trans ?_
      rw [hact]
      rfl
  · intro q w hq ht
    rw [hget q hq]
    obtain ⟨-, -, h2⟩ := C64_resolves s2 q ht
    exact h2 hq
  · intro hlenb q nd' hwq
    by_cases hq : q = []
    · subst hq; simp [Parser.Get, Get]
    · rw [hget q hq]
      have hva := halike q
      simp only [Node.valueAt] at hva
      have hwq : ca.walk q = .ok nd' := hwq
      rw [hwq] at hva
      cases hcs : cs.walk q with
      | ok nd2 => exact C64_get s2 hlenb hcs
      | err e => rw [hcs] at hva; cases hva
      | panic => rw [hcs] at hva; cases hva

/-- For every parser state: when `Parser.Insert` reports success the text is what `Insert` gives. -/
theorem C67_text {p p' : Parser} {i : Int} {v : Bytes} {path : List Bytes} (h : p.Insert i v path = .done p' none) :
    Insert p.json i v path = .done p'.json none := by
  simp only [Parser.Insert] at h
  repeat' split at h
  all_goals first | (cases h; done) | skip
  all_goals first | (cases h; assumption) | (rw [finish_json h]; assumption)

/-- After an insertion the nodes are no longer in the order of the elements, so the next one gives
them wrong labels; an array of one scalar cannot be inserted into; a container inserted at the root
gets no value, and its entries lie one level too deep. -/
theorem C67_fails :
    session (str "[1,2,3]") (fun p => match p.Insert 0 (str "9") [] with
        | .done q none => q.Insert 1 (str "8") []
        | r => r) (fun p => (p.json, p.Get [str "0"], p.Get [str "1"])) =
      some ((str "[9,8,1,2,3]", .err (.keyNotFound (str "0")), .ok (str "1")), none) ∧
    session (str "[1]") (·.Insert 0 (str "9") []) Parser.json = some (str "[1]", some .indexOutOfRange) ∧
    Insert (str "[1]") 0 (str "9") [] = .done (str "[9,1]") none ∧
    session (str "[1,2]") (·.Insert 0 (str "{\"a\":5}") []) (fun p => (p.json, p.Get [str "0", str "a"], p.Get [str "0", str "0", str "a"])) =
      some ((str "[{\"a\":5},1,2]", .err (.keyNotFound (str "a")), .ok (str "5")), none) := by
  refine ⟨?_, ?_, ?_, ?_⟩ <;> decide +kernel

/-- The hypotheses are met by an insertion into the array of the sample document. -/
example : ∃ p p', Parse Sample.doc.render = .ok p ∧ p.Insert 1 (str "7") Sample.toArr = .done p' none ∧ p'.json =
    str "\n{\"a\": 1, \"b\\\"]\" :[ 10 ,7,\"x]\\\\\" , {\"k\":null}, [] ],\"a\":2,\"o\":{ \"p\":{\"q\":true }, \"r\":-1.5e3}} " := by
  obtain ⟨p, h1, -⟩ := parse_sync Sample.doc_wf rfl
  obtain ⟨p', w', h2, -⟩ := C67_insert_partial (v := .lit (str "7")) (n := 1) (.parse Sample.doc_wf rfl h1)
    (⟨Sample.get_arr, by decide +kernel⟩ : Shown Sample.doc Sample.toArr (.arr [] Sample.elems)) (by decide +kernel) (by decide +kernel)
    (by decide) (by decide +kernel) rfl (by decide +kernel) (by decide +kernel)
  have hj := C67_text h2
  have hp : p.json = Sample.doc.render := by
    rw [Parse_ok Sample.doc_wf rfl] at h1
    cases h1; rfl
  rw [hp] at hj
  have : Insert Sample.doc.render ((1 : Nat) : Int) (Json.lit (str "7")).render Sample.toArr =
      .done (str "\n{\"a\": 1, \"b\\\"]\" :[ 10 ,7,\"x]\\\\\" , {\"k\":null}, [] ],\"a\":2,\"o\":{ \"p\":{\"q\":true }, \"r\":-1.5e3}} ") none := by
    decide +kernel
  rw [hj] at this
  injection this with this
  exact ⟨p, p', h1, h2, this⟩

/-- The first insertion is read back through the tree. -/
example : session Sample.doc.render (·.Insert 1 (str "7") Sample.toArr)
      (fun p => (p.Get (Sample.toArr ++ [str "1"]), p.Get (Sample.toArr ++ [str "2"]))) = some ((.ok (str "7"), .ok (str "x]\\\\")), none) ∧
    session (str "[1,2,3]") (·.Insert 1 (str "9") []) (fun p => (p.json, p.Get [str "1"], p.Get [str "3"])) =
      some ((str "[1,9,2,3]", .ok (str "9"), .ok (str "3")), none) := by decide +kernel

/-! ### C68 -/

/-- A line of the outline: the label, indented by its depth. -/
def outlineLine (depth : Nat) (label : Text) : Text :=
  (if depth = 0 then str "─ " else List.replicate depth 9 ++ str "└  ") ++ label ++ str "\n"

mutual
/-- The labels of everything below a value, in the order of the text; an array of one scalar
has none. -/
def outline (depth : Nat) : Json → Text
  | .arr _ es => if lone es then [] else outlineE depth 0 es
  | .obj _ ms => outlineM depth ms
  | _ => []
def outlineE (depth k : Nat) : List (Elem Json) → Text
  | [] => []
  | ⟨_, v, _⟩ :: es => outlineLine depth (itoa k) ++ outline (depth + 1) v ++ outlineE depth (k + 1) es
def outlineM (depth : Nat) : List (Member Json) → Text
  | [] => []
  | ⟨_, key, _, _, v, _⟩ :: ms => outlineLine depth key ++ outline (depth + 1) v ++ outlineM depth ms
end

theorem treeLine_outline (pad : Bytes → Bytes) (depth : Nat) (label value : Bytes) :
    treeLine pad depth false label value = outlineLine depth label := by
  have h1 : str "─ " = dashRune ++ [32] := by decide +kernel
  have h2 : str "└  " = hookRune ++ [32] ++ [32] := by decide +kernel
  have h3 : str "\n" = [10] := by decide +kernel
  unfold treeLine outlineLine
  rw [h1, h2, h3]
  cases depth with
  | zero => rfl
  | succ n => simp [List.replicate_succ]

theorem createTrees_cons (pad : Bytes → Bytes) (depth : Nat) (b : Bool) (d : Node) (ds : List Node) :
    createTrees pad depth b (d :: ds) = treeLine pad depth b d.label d.value ++ (createTrees pad (depth + 1) b d.down ++ createTrees pad depth b ds) := by
  cases d with
  | mk l v dn =>
    rw [createTrees]
    cases dn with
    | nil => simp [Node.down, Node.label, Node.value, createTrees]
    | cons a dn => simp [Node.down, Node.label, Node.value, Node.createTree]

mutual
/-- No array of one scalar anywhere in the value. -/
def fewLone : Json → Bool
  | .arr _ es => !lone es && fewLoneE es
  | .obj _ ms => fewLoneM ms
  | _ => true
def fewLoneE : List (Elem Json) → Bool
  | [] => true
  | ⟨_, v, _⟩ :: es => fewLone v && fewLoneE es
def fewLoneM : List (Member Json) → Bool
  | [] => true
  | ⟨_, _, _, _, v, _⟩ :: ms => fewLone v && fewLoneM ms
end

mutual
theorem kids_outline (pad : Bytes → Bytes) : ∀ (v : Json) (depth : Nat) {ds : List Node}, Kids ds v → fewLone v →
    createTrees pad depth false ds = outline depth v
  | .lit _, _, ds, h, _ => by simp only [Kids] at h; subst h; rfl
  | .str _, _, ds, h, _ => by simp only [Kids] at h; subst h; rfl
  | .arr _ es, depth, ds, h, hl => by
    simp only [fewLone, Bool.and_eq_true, Bool.not_eq_true'] at hl
    rw [Kids, hl.1] at h
    rcases h with ⟨h, -⟩ | h
    · cases h
    · rw [outline, hl.1, kidsE_outline pad es depth h hl.2]; rfl
  | .obj _ ms, depth, ds, h, hl => by
    rw [Kids] at h
    rw [outline, kidsM_outline pad ms depth h hl]
theorem kidsE_outline (pad : Bytes → Bytes) : ∀ (es : List (Elem Json)) (depth : Nat) {k : Nat} {ds : List Node}, KidsE k ds es → fewLoneE es →
    createTrees pad depth false ds = outlineE depth k es
  | [], _, _, ds, h, _ => by rw [KidsE] at h; subst h; rfl
  | ⟨l, v, r⟩ :: es, depth, k, ds, h, hl => by
    obtain ⟨d, rest, rfl, h1, h2, h3⟩ := kidsE_cons.1 h
    simp only [fewLoneE, Bool.and_eq_true] at hl
    rw [createTrees_cons, treeLine_outline, h1, kids_outline pad v (depth + 1) h2.2 hl.1, kidsE_outline pad es depth h3 hl.2, outlineE]
    simp
theorem kidsM_outline (pad : Bytes → Bytes) : ∀ (ms : List (Member Json)) (depth : Nat) {ds : List Node}, KidsM ds ms → fewLoneM ms →
    createTrees pad depth false ds = outlineM depth ms
  | [], _, ds, h, _ => by rw [KidsM] at h; subst h; rfl
  | ⟨l, key, m, l2, v, r⟩ :: ms, depth, ds, h, hl => by
    obtain ⟨d, rest, rfl, h1, h2, h3⟩ := kidsM_cons.1 h
    simp only [fewLoneM, Bool.and_eq_true] at hl
    rw [createTrees_cons, treeLine_outline, h1, kids_outline pad v (depth + 1) h2.2 hl.1, kidsM_outline pad ms depth h3 hl.2, outlineM]
    simp
end

mutual
theorem nodeOf_outline (pad : Bytes → Bytes) : ∀ (v : Json) (depth : Nat) {label l r : Bytes},
    createTrees pad depth false (nodeOf label l r v).down = outline depth v
  | .lit _, _, _, _, _ => rfl
  | .str _, _, _, _, _ => rfl
  | .arr _ es, depth, label, l, r => by
    rw [nodeOf_down, outline]
    by_cases h : lone es
    · simp [h, createTrees]
    · simp only [h, Bool.false_eq_true, if_false]; exact nodesE_outline pad es depth 0
  | .obj _ ms, depth, label, l, r => by
    rw [nodeOf_down, outline]
    exact nodesM_outline pad ms depth
theorem nodesE_outline (pad : Bytes → Bytes) : ∀ (es : List (Elem Json)) (depth k : Nat),
    createTrees pad depth false (nodesE k es) = outlineE depth k es
  | [], _, _ => by rw [nodesE, createTrees, outlineE]
  | ⟨l, v, r⟩ :: es, depth, k => by
    rw [nodesE_cons, createTrees_cons, treeLine_outline, nodeOf_label, nodeOf_outline pad v (depth + 1), nodesE_outline pad es depth (k + 1), outlineE]
    simp
theorem nodesM_outline (pad : Bytes → Bytes) : ∀ (ms : List (Member Json)) (depth : Nat),
    createTrees pad depth false (nodesM ms) = outlineM depth ms
  | [], _ => by rw [nodesM, createTrees, outlineM]
  | ⟨l, key, m, l2, v, r⟩ :: ms, depth => by
    rw [nodesM_cons, createTrees_cons, treeLine_outline, nodeOf_label, nodeOf_outline pad v (depth + 1), nodesM_outline pad ms depth, outlineM]
    simp
end

theorem tree_eq (p : Parser) : p.Tree = createTrees (fun _ => []) 0 false p.core.down := by
  unfold Parser.Tree
  cases p.core
  rw [Node.createTree]; rfl

/-- `Tree` after `Parse`, exactly: the outline of the document. -/
theorem C68_parse_exact {d : Doc} {p : Parser} (hd : d.wf) (hc : d.root.isContainer) (hp : Parse d.render = .ok p) :
    p.Tree = outline 0 d.root := by
  rw [Parse_ok hd hc] at hp
  cases hp
  rw [tree_eq]
  exact nodeOf_outline _ d.root 0

/-- **C68 (partial)** `Tree` after `Parse` and any number of the calls of `PCall.ok` is the outline
of the document that the text now is.  Missing: documents with an array of one scalar, whose
element is not listed (`C68_fails`), and the other calls. -/
theorem C68_tree_partial {p : Parser} {d : Doc} (h : Reached p d) (hl : fewLone d.root) : p.Tree = outline 0 d.root := by
  rw [tree_eq]
  exact kids_outline _ d.root 0 (session_sync h).kids hl

/-- A line of the full outline: label, filled up by `pad`, and value. -/
def outlineFullLine (pad : Text → Text) (depth : Nat) (label value : Text) : Text :=
  (if depth = 0 then str "─ " else List.replicate depth 9 ++ str "└  ") ++ label ++ pad label ++ str " : " ++ value ++ str "\n"

mutual
/-- The same with the texts of the values; scalars come with the whitespace around them. -/
def outlineFull (pad : Text → Text) (depth : Nat) : Json → Text
  | .arr _ es => if lone es then [] else outlineFullE pad depth 0 es
  | .obj _ ms => outlineFullM pad depth ms
  | _ => []
def outlineFullE (pad : Text → Text) (depth k : Nat) : List (Elem Json) → Text
  | [] => []
  | ⟨l, v, r⟩ :: es =>
    outlineFullLine pad depth (itoa k) (if v.isContainer then v.render else l ++ v.render ++ r) ++ outlineFull pad (depth + 1) v ++
      outlineFullE pad depth (k + 1) es
def outlineFullM (pad : Text → Text) (depth : Nat) : List (Member Json) → Text
  | [] => []
  | ⟨_, key, _, l2, v, r⟩ :: ms =>
    outlineFullLine pad depth key (if v.isContainer then v.render else l2 ++ v.render ++ r) ++ outlineFull pad (depth + 1) v ++
      outlineFullM pad depth ms
end

theorem treeLine_full (pad : Bytes → Bytes) (depth : Nat) (label value : Bytes) :
    treeLine pad depth true label value = outlineFullLine pad depth label value := by
  have h1 : str "─ " = dashRune ++ [32] := by decide +kernel
  have h2 : str "└  " = hookRune ++ [32] ++ [32] := by decide +kernel
  have h3 : str "\n" = [10] := by decide +kernel
  have h4 : str " : " = [32, 58, 32] := by decide +kernel
  unfold treeLine outlineFullLine
  rw [h1, h2, h3, h4]
  cases depth with
  | zero => rfl
  | succ n => simp [List.replicate_succ]

theorem nodeOf_value (label l r : Bytes) (v : Json) :
    (nodeOf label l r v).value = if v.isContainer then v.render else l ++ v.render ++ r := by
  cases v <;> simp [nodeOf, Node.value, Json.isContainer]

mutual
theorem nodeOf_full (pad : Bytes → Bytes) : ∀ (v : Json) (depth : Nat) {label l r : Bytes},
    createTrees pad depth true (nodeOf label l r v).down = outlineFull pad depth v
  | .lit _, _, _, _, _ => rfl
  | .str _, _, _, _, _ => rfl
  | .arr _ es, depth, label, l, r => by
    rw [nodeOf_down, outlineFull]
    by_cases h : lone es
    · simp [h, createTrees]
    · simp only [h, Bool.false_eq_true, if_false]; exact nodesE_full pad es depth 0
  | .obj _ ms, depth, label, l, r => by
    rw [nodeOf_down, outlineFull]
    exact nodesM_full pad ms depth
theorem nodesE_full (pad : Bytes → Bytes) : ∀ (es : List (Elem Json)) (depth k : Nat),
    createTrees pad depth true (nodesE k es) = outlineFullE pad depth k es
  | [], _, _ => by rw [nodesE, createTrees, outlineFullE]
  | ⟨l, v, r⟩ :: es, depth, k => by
    rw [nodesE_cons, createTrees_cons, treeLine_full, nodeOf_label, nodeOf_value, nodeOf_full pad v (depth + 1), nodesE_full pad es depth (k + 1),
      outlineFullE]
    simp only [List.append_assoc]
theorem nodesM_full (pad : Bytes → Bytes) : ∀ (ms : List (Member Json)) (depth : Nat),
    createTrees pad depth true (nodesM ms) = outlineFullM pad depth ms
  | [], _ => by rw [nodesM, createTrees, outlineFullM]
  | ⟨l, key, m, l2, v, r⟩ :: ms, depth => by
    rw [nodesM_cons, createTrees_cons, treeLine_full, nodeOf_label, nodeOf_value, nodeOf_full pad v (depth + 1), nodesM_full pad ms depth, outlineFullM]
    simp only [List.append_assoc]
end

/-- `TreeFull` after `Parse`, exactly. -/
theorem C68_full_exact (pad : Text → Text) {d : Doc} {p : Parser} (hd : d.wf) (hc : d.root.isContainer) (hp : Parse d.render = .ok p) :
    p.TreeFull pad = outlineFull pad 0 d.root := by
  rw [Parse_ok hd hc] at hp
  cases hp
  have := nodeOf_full pad d.root 0 (label := itoa 0) (l := []) (r := [])
  unfold Parser.TreeFull rootNode
  cases h : nodeOf (itoa 0) [] [] d.root with
  | mk a b c => rw [h] at this; rw [Node.createTree]; exact this

/-- The element of an array of one scalar is not listed. -/
theorem C68_fails : (Parse (str "{\"a\":[1],\"b\":[1,2]}")).map Parser.Tree =
    .ok (str "─ a\n─ b\n\t└  0\n\t└  1\n") := by decide +kernel

example : (Parse Sample.doc.render).map Parser.Tree =
    .ok (str "─ a\n─ b\\\"]\n\t└  0\n\t└  1\n\t└  2\n\t\t└  k\n\t└  3\n─ a\n─ o\n\t└  p\n\t\t└  q\n\t└  r\n") ∧
    fewLone Sample.doc.root ∧
    (Parse (str "{\"a\": 1 ,\"b\":[true,null]}")).map (Parser.TreeFull fun t => List.replicate (6 - t.length) 32) =
      .ok (str "─ a      :  1 \n─ b      : [true,null]\n\t└  0      : true\n\t└  1      : null\n") := by decide +kernel

/-! ### C69 -/

/-- **C69 (partial)** For every parser state: when one of the typed `Add`, `AddKeyValue` or `Insert`
methods of `Parser` reports success at a nested path, the text is what the typed function gives on the text
before.  Missing: the root for `Add` and `AddKeyValue` (`C56_fails`). -/
theorem C69_add_partial {F : Type} (fl : FloatLib F) (isFloat : Bytes → Bool) {p p' : Parser} {path : List Bytes} (hp : path ≠ []) :
    (∀ v, p.AddString isFloat v path = .done p' none → AddString isFloat p.json v path = .done p'.json none) ∧
    (∀ n, p.AddInt n path = .done p' none → AddInt p.json n path = .done p'.json none) ∧
    (∀ x, p.AddFloat fl x path = .done p' none → AddFloat fl p.json x path = .done p'.json none) ∧
    (∀ b, p.AddBool b path = .done p' none → AddBool p.json b path = .done p'.json none) :=
  ⟨fun _ h => C56_nested_add_partial hp h, fun _ h => C56_nested_add_partial hp h, fun _ h => C56_nested_add_partial hp h,
    fun _ h => C56_nested_add_partial hp h⟩

theorem C69_addKeyValue_partial {F : Type} (fl : FloatLib F) (isFloat : Bytes → Bool) {p p' : Parser} {k : Bytes} {path : List Bytes} (hp : path ≠ []) :
    (∀ v, p.AddKeyValueString isFloat k v path = .done p' none → AddKeyValueString isFloat p.json k v path = .done p'.json none) ∧
    (∀ n, p.AddKeyValueInt k n path = .done p' none → AddKeyValueInt p.json k n path = .done p'.json none) ∧
    (∀ x, p.AddKeyValueFloat fl k x path = .done p' none → AddKeyValueFloat fl p.json k x path = .done p'.json none) ∧
    (∀ b, p.AddKeyValueBool k b path = .done p' none → AddKeyValueBool p.json k b path = .done p'.json none) := by
  have key : ∀ t, (if k.length == 0 then PRes.done p (some .nullKey) else p.AddKeyValue k t path) = .done p' none →
      (k.length == 0) = false ∧ AddKeyValue p.json k (some t) path = .done p'.json none := by
    intro t h
    cases hk : k.length == 0 with
    | true => simp [hk] at h
    | false => exact ⟨rfl, C56_nested_addKeyValue_partial hp (by simpa [hk] using h)⟩
  refine ⟨fun v h => ?_, fun v h => ?_, fun v h => ?_, fun v h => ?_⟩ <;> obtain ⟨h1, h2⟩ := key _ h
  · simp only [AddKeyValueString, h1, Bool.false_eq_true, if_false, h2]
  · simp only [AddKeyValueInt, addKV, h1, Bool.false_eq_true, if_false, Mut.bindOut, h2]
  · simp only [AddKeyValueFloat, addKV, h1, Bool.false_eq_true, if_false, Mut.bindOut, h2]
  · simp only [AddKeyValueBool, addKV, h1, Bool.false_eq_true, if_false, Mut.bindOut, h2]

theorem C69_insert {F : Type} (fl : FloatLib F) (isFloat : Bytes → Bool) {p p' : Parser} {i : Int} {path : List Bytes} :
    (∀ v, p.InsertString isFloat i v path = .done p' none → InsertString isFloat p.json i v path = .done p'.json none) ∧
    (∀ n, p.InsertInt i n path = .done p' none → InsertInt p.json i n path = .done p'.json none) ∧
    (∀ x, p.InsertFloat fl i x path = .done p' none → InsertFloat fl p.json i x path = .done p'.json none) ∧
    (∀ b, p.InsertBool i b path = .done p' none → InsertBool p.json i b path = .done p'.json none) := by
  have key : ∀ t, (if i < 0 then PRes.done p (some .indexOutOfRange) else p.Insert i t path) = .done p' none →
      ¬ i < 0 ∧ Insert p.json i t path = .done p'.json none := by
    intro t h
    by_cases hi : i < 0
    · simp [hi] at h
    · exact ⟨hi, C67_text (by simpa [hi] using h)⟩
  refine ⟨fun v h => ?_, fun v h => ?_, fun v h => ?_, fun v h => ?_⟩ <;> obtain ⟨h1, h2⟩ := key _ h
  · simp only [InsertString, h1, if_false, h2]
  · simp only [InsertInt, insertText, h1, if_false, Mut.bindOut, h2]
  · simp only [InsertFloat, insertText, h1, if_false, Mut.bindOut, h2]
  · simp only [InsertBool, insertText, h1, if_false, Mut.bindOut, h2]

/-- In step, the typed `Set` methods of `Parser` at a path that the document resolves write what the
typed functions write; `SetString` only for a string that `formatType` quotes
(`C69_fails`). -/
theorem C69_set_partial {F : Type} (fl : FloatLib F) (isFloat : Bytes → Bool) {p p' : Parser} {d : Doc} {path : List Text} {w : Json} (hr : Reached p d)
    (hp : path ≠ []) (hsh : Shown d path w) :
    (∀ n e, p.SetInt n path = .done p' e → SetInt p.json n path = .done p'.json none) ∧
    (∀ x e, p.SetFloat fl x path = .done p' e → SetFloat fl p.json x path = .done p'.json none) ∧
    (∀ b e, p.SetBool b path = .done p' e → SetBool p.json b path = .done p'.json none) ∧
    (∀ v e, v.head? ≠ some 34 → v.getLast? ≠ some 34 → formatType isFloat v = quote v → p.SetString v path = .done p' e →
      SetString isFloat p.json v path = .done p'.json none) := by
  have hs := session_sync hr
  obtain ⟨nd, hw, -⟩ := C64_resolves hs path hsh.2
  have key : ∀ t e, p.Set t path = .done p' e → Set p.json t path = .done p'.json none := by
    intro t e h
    obtain ⟨e', h1⟩ := C54_set hp hw h
    rw [hs.json, set_ok hs.wf hp hsh.1] at h1 ⊢
    injection h1 with h1 h2
    rw [h1]
  refine ⟨fun n e h => key _ e h, fun x e h => key _ e h, fun b e h => key _ e h, fun v e h1 h2 h3 h => ?_⟩
  unfold Parser.SetString at h
  split at h
  · next a z ha hz =>
    have : (a != 34 && z != 34) = true := by
      rw [ha] at h1; rw [hz] at h2
      simp only [ne_eq, Option.some.injEq] at h1 h2
      simp [h1, h2]
    rw [if_pos this] at h
    rw [SetString, h3]
    exact key _ e h
  · cases h

/-- `Parser.SetString` quotes numbers and the literals, `SetString` does not; it writes a text
with one quote as it is; it panics on the empty string. -/
theorem C69_fails (isFloat : Bytes → Bool) :
    session (str "{\"a\":1}") (·.SetString (str "5") [str "a"]) Parser.json = some (str "{\"a\":\"5\"}", none) ∧
    SetString isFloat (str "{\"a\":1}") (str "5") [str "a"] = .done (str "{\"a\":5}") none ∧
    session (str "{\"a\":1}") (·.SetString (str "5\"") [str "a"]) Parser.json = some (str "{\"a\":5\"}", none) ∧
    (∀ p : Parser, p.SetString [] [str "a"] = .panic) := by
  refine ⟨by decide +kernel, ?_, by decide +kernel, fun p => rfl⟩
  have h5 : str "5" = [53] := by decide +kernel
  have hf : formatType isFloat [53] = [53] := by
    simp only [formatType]
    rw [if_neg (by decide +kernel), if_pos (by decide +kernel), if_neg (by decide +kernel)]
  rw [SetString, h5, hf]
  decide +kernel

example : session (str "{\"a\":[1,2],\"o\":{}}") (·.AddBool true [str "a"]) Parser.json = some (str "{\"a\":[1,2,true],\"o\":{}}", none) ∧
    session (str "{\"a\":[1,2],\"o\":{}}") (·.AddKeyValueInt (str "k") (-3) [str "o"]) Parser.json =
      some (str "{\"a\":[1,2],\"o\":{\"k\":-3}}", none) ∧
    session (str "{\"a\":[1,2],\"o\":{}}") (·.InsertInt 0 12 [str "a"]) Parser.json = some (str "{\"a\":[12,1,2],\"o\":{}}", none) ∧
    session (str "{\"a\":[1,2],\"o\":{}}") (·.SetString (str "x") [str "a", str "1"]) Parser.json =
      some (str "{\"a\":[1,\"x\"],\"o\":{}}", none) := by
  refine ⟨?_, ?_, ?_, ?_⟩ <;> decide +kernel

/-- The hypotheses of C65, C66, C68 and C69 are met on the sample document after a call. -/
example {F : Type} (fl : FloatLib F) (isFloat : Bytes → Bool) : ∃ p1 p2 d2 nd, Parse Sample.doc.render = .ok p1 ∧
    p1.Set (str "7") Sample.toTrue = .done p2 none ∧ Reached p2 d2 ∧ p2.core.walk Sample.toObj = .ok nd ∧
    p2.GetFloat fl Sample.toObj = GetFloat fl p2.json Sample.toObj ∧
    (∃ w' : Json, p2.GetNew Sample.toObj = .ok w'.content) ∧ p2.Tree = outline 0 d2.root ∧
    (∀ p3 e, p2.SetBool true Sample.toTrue = .done p3 e → SetBool p2.json true Sample.toTrue = .done p3.json none) := by
  obtain ⟨p1, h1, -⟩ := parse_sync Sample.doc_wf rfl
  have r1 := Reached.parse Sample.doc_wf rfl h1
  have o1 : PCall.ok Sample.doc (.set Sample.toTrue (.lit (str "7"))) :=
    ⟨by decide +kernel, by decide +kernel, rfl, .lit bTrue, ⟨Sample.get_true, by decide +kernel⟩, rfl⟩
  obtain ⟨p2, d2, h2, g2, r2⟩ := C64_call_partial r1 o1
  have g2 : d2 = Sample.doc.set Sample.toTrue (.lit (str "7")) := g2
  subst g2
  have hs : ∃ w, Shown (Sample.doc.set Sample.toTrue (.lit (str "7"))) Sample.toObj w := by
    cases h : (Sample.doc.set Sample.toTrue (.lit (str "7"))).get? Sample.toObj with
    | none => exact absurd h (by decide +kernel)
    | some w => exact ⟨w, h, by rw [← h]; decide +kernel⟩
  have ht : Shown (Sample.doc.set Sample.toTrue (.lit (str "7"))) Sample.toTrue (.lit (str "7")) := ⟨by decide +kernel, by decide +kernel⟩
  obtain ⟨w, hw⟩ := hs
  obtain ⟨nd, hn, -⟩ := C64_resolves (session_sync r2) _ hw.2
  refine ⟨p1, p2, _, nd, h1, h2, r2, hn, (C65_typed_partial fl r2 (by decide +kernel) hn).2.2.1, ?_, C68_tree_partial r2 (by decide +kernel),
    fun p3 e h => (C69_set_partial fl isFloat r2 (by decide +kernel) ht).2.2.1 true e h⟩
  obtain ⟨w', h, -⟩ := C66_getNew_partial r2 (by decide +kernel) hw.1 hn
  exact ⟨w', h⟩

end Jin
