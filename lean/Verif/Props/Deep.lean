import Verif.Props.Aside
import Verif.Proof.ParserMemOps
/-!
# Property C145: what lies inside an object or array that a parser was given
-/

namespace Jin
open Spec

namespace Deep

theorem get_none {p : Parser} {q : List Bytes} {e : Err} (hq : q ≠ []) (h : p.Get q = .err e) : p.core.walk q = .err e := by
  have hl : (q.length == 0) = false := by cases q <;> simp_all
  simp only [Parser.Get, hl, Bool.false_eq_true, if_false] at h
  cases hw : p.core.walk q with
  | ok nd => rw [hw] at h; exact absurd h cleanValue_ne
  | err e' => rw [hw] at h; cases h; rfl
  | panic => rw [hw] at h; cases h

theorem walk_upd {f : Node → Node} (r : List Bytes) : ∀ (path : List Bytes) {n nd : Node}, n.walk path = .ok nd → (f nd).label = nd.label →
    (n.updAt f path).walk (path ++ r) = (f nd).walk r
  | [], n, nd, h, _ => by rw [Node.walk] at h; cases h; rfl
  | b :: path, n, nd, h, hl => by
    rw [Node.walk] at h
    cases hf : n.down.find? (fun d => d.label == b) with
    | none => rw [hf] at h; cases h
    | some d =>
      rw [hf] at h
      have h : d.walk path = .ok nd := h
      have hd : (d.updAt f path).label = d.label := by
        cases path with
        | nil => rw [Node.walk] at h; cases h; exact hl
        | cons x xs => rw [Node.updAt, setDown_label]
      rw [List.cons_append, Node.updAt, Node.walk, setDown_down, Fresh.find_hit hf hd]
      exact walk_upd r path h hl

/-- The node that `Set`, `Add` and `AddKeyValue` make of an object or array. -/
theorem new_node {x : Json} (hx : x.wf) (hc : x.isContainer) {f : Node → Node} {n : Node}
    (h : (pCore x.render (.mk [] [] [])).map f = .ok n) : n = f (.mk [] [] [rootNode x]) := by
  have := pCore_ok (d := ⟨[], x, []⟩) (doc_wf.2 ⟨rfl, hx, rfl⟩) hc (.mk [] [] [])
  simp only [Doc.render, List.nil_append, List.append_nil] at this
  rw [this] at h
  cases h
  rfl

theorem opens {x : Json} (hc : x.isContainer) : opensContainer x.render = true := by
  have := container_len hc
  unfold opensContainer
  cases x with
  | lit _ => cases hc
  | str _ => cases hc
  | arr g es => rw [render_arr] at this ⊢; simp
  | obj g es => rw [render_obj] at this ⊢; simp

theorem first {x : Json} (hc : x.isContainer) : ((idx x.render 0).map fun c => c == 91 || c == 123) = .ok true := by
  have hi : ∀ (c : UInt8) (t : Bytes), idx (c :: t) 0 = .ok c := fun c t => idx_nat (i := 0) rfl
  cases x with
  | lit _ => cases hc
  | str _ => cases hc
  | arr g es => rw [render_arr, hi]; rfl
  | obj g es => rw [render_obj, hi]; rfl

theorem find_none {k : Bytes} {e : Err} : ∀ {path : List Bytes} {n nd : Node}, n.walk path = .ok nd → n.walk (path ++ [k]) = .err e →
    nd.down.find? (fun d => d.label == k) = none
  | [], n, nd, h, h' => by
    rw [Node.walk] at h
    cases h
    rw [List.nil_append, Node.walk] at h'
    cases hf : n.down.find? (fun d => d.label == k) with
    | none => rfl
    | some d => rw [hf] at h'; cases h'
  | b :: path, n, nd, h, h' => by
    rw [Node.walk] at h
    rw [List.cons_append, Node.walk] at h'
    cases hf : n.down.find? (fun d => d.label == b) with
    | none => rw [hf] at h; cases h
    | some d =>
      rw [hf] at h h'
      exact find_none (path := path) h h'

theorem no_later : ∀ {ds : List Node} {xs : List Entry} {k m : Nat}, KidsL k ds xs → (∀ x ∈ xs, x.key = none) → k + ds.length ≤ m →
    ds.find? (fun d => d.label == itoa m) = none
  | [], _, _, _, _, _, _ => rfl
  | d :: ds, [], _, _, h, _, _ => by cases h
  | d :: ds, x :: xs, k, m, h, hx, hm => by
    rw [KidsL] at h
    have hd : d.label = itoa k := by rw [h.1, entLabel, hx x List.mem_cons_self]; rfl
    have : (d.label == itoa m) = false := by
      rw [hd]
      simp only [List.length_cons] at hm
      simpa using fun e => absurd (itoa_inj e) (by omega)
    rw [List.find?_cons, this]
    exact no_later h.2.2 (fun y hy => hx y (List.mem_cons_of_mem _ hy)) (by simp only [List.length_cons] at hm; omega)

theorem find_relabel {i : Nat} : ∀ {ds : List Node} {xs : List Entry} {k : Nat}, KidsL k ds xs → (∀ x ∈ xs, x.key = none) →
    (relabel i k ds).find? (fun d => d.label == itoa i) = none
  | [], _, _, _, _ => rfl
  | d :: ds, [], _, h, _ => by cases h
  | d :: ds, x :: xs, k, h, hx => by
    rw [KidsL] at h
    have hd : d.label = itoa k := by rw [h.1, entLabel, hx x List.mem_cons_self]; rfl
    have : ((if i ≤ k then d.setLabel (itoa (k + 1)) else d).label == itoa i) = false := by
      split
      · have : (d.setLabel (itoa (k + 1))).label = itoa (k + 1) := by cases d; rfl
        rw [this]
        simpa using fun e => absurd (itoa_inj (a := k + 1) (b := i) e) (by omega)
      · rw [hd]
        simpa using fun e => absurd (itoa_inj e) (by omega)
    rw [relabel, List.find?_cons, this]
    exact find_relabel h.2.2 (fun y hy => hx y (List.mem_cons_of_mem _ hy))

theorem root_label (x : Json) : (rootNode x).label = itoa 0 := by cases x <;> rfl

theorem root_value {x : Json} (hc : x.isContainer) : (rootNode x).value = x.render := by
  cases x <;> first | rfl | cases hc

theorem get_of {p p' : Parser} {q q' : List Bytes} (h1 : q ≠ []) (h2 : q' ≠ []) (h : p.core.valueAt q = p'.core.valueAt q') : p.Get q = p'.Get q' := by
  rw [get_valueAt h1, get_valueAt h2, h]

theorem clean_root {x : Json} (hx : x.wf) (hc : x.isContainer) : cleanValue x.render = .ok x.render := by
  have hcw : x.content = x.render := by cases x <;> first | rfl | cases hc
  have := cleanValue_ok (l := []) (r := []) (v := x) rfl hx rfl
  simpa [hcw] using this

/-- What a parser shows at and below a node with the value `u` and a container as its only child. -/
theorem shown_at {p : Parser} {x : Json} {l u : Bytes} {q : List Bytes} (hx : x.wf) (hc : x.isContainer) (hq : q ≠ [])
    (h : ∀ r, p.core.valueAt (q ++ r) = (Node.mk l u [rootNode x]).valueAt r) :
    ∃ p0, Parse x.render = .ok p0 ∧ p.Get q = cleanValue u ∧
      ∀ r, p.Get (q ++ itoa 0 :: r) = p0.Get r ∧ ∀ b, b ≠ itoa 0 → p.Get (q ++ b :: r) = .err (.keyNotFound b) := by
  have hp := Parse_ok (d := ⟨[], x, []⟩) (doc_wf.2 ⟨rfl, hx, rfl⟩) hc
  simp only [Doc.render, List.nil_append, List.append_nil] at hp
  refine ⟨_, hp, ?_, fun r => ⟨?_, fun b hb => ?_⟩⟩
  · have := h []
    rw [List.append_nil] at this
    rw [get_valueAt hq, this]
    rfl
  · have hv : p.core.valueAt (q ++ itoa 0 :: r) = (rootNode x).valueAt r := by
      rw [h, Node.valueAt, Node.valueAt, Node.walk]
      simp [Node.down, root_label]
    by_cases hr : r = []
    · subst hr
      rw [get_valueAt (by simp), hv]
      show cleanValue (rootNode x).value = _
      rw [root_value hc]
      exact clean_root hx hc
    · exact get_of (by simp) hr hv
  · rw [get_valueAt (by simp), h, Node.valueAt, Node.walk]
    have : ((rootNode x).label == b) = false := by rw [root_label]; simpa using fun e => hb e.symm
    simp [Node.down, this, Out.map, Out.bind]

theorem shown {p : Parser} {x : Json} {l : Bytes} {q : List Bytes} (hx : x.wf) (hc : x.isContainer) (hq : q ≠ [])
    (h : ∀ r, p.core.valueAt (q ++ r) = (Node.mk l x.render [rootNode x]).valueAt r) :
    ∃ p0, Parse x.render = .ok p0 ∧ p.Get q = .ok x.render ∧
      ∀ r, p.Get (q ++ itoa 0 :: r) = p0.Get r ∧ ∀ b, b ≠ itoa 0 → p.Get (q ++ b :: r) = .err (.keyNotFound b) := by
  have := shown_at hx hc hq h
  rwa [clean_root hx hc] at this

theorem relabel_again {i : Nat} : ∀ (k : Nat) (ds : List Node), relabel i k (relabel i k ds) = relabel i k ds
  | _, [] => rfl
  | k, d :: ds => by
    rw [relabel, relabel, relabel_again (k + 1) ds]
    split
    · cases d; rfl
    · rfl

/-- What is below a child that stands behind children with other labels. -/
theorem last_child {n d : Node} {b : Bytes} (hb : d.label = b) (hn : n.down.find? (fun d => d.label == b) = none) (r : List Bytes) :
    (n.addChild d).valueAt ([b] ++ r) = d.valueAt r := by
  rw [List.singleton_append, Node.valueAt, Node.valueAt, Node.walk, Node.addChild, setDown_down, List.find?_append, hn]
  simp [hb]

theorem add_walk {p p' : Parser} {v : Bytes} {path : List Bytes} (hp : path ≠ []) (h : p.Add v path = .done p' none) : ∃ nd, p.core.walk path = .ok nd := by
  unfold Parser.Add at h
  cases hg : p.Get path with
  | panic => rw [hg] at h; simp only at h; split at h <;> cases h
  | err e => rw [hg] at h; simp only at h; split at h <;> cases h
  | ok json => exact Fresh.get_walk hp hg

theorem no_kids {ds : List Node} {es : List (Elem Json)} (hl : lone es = true) (hk : (lone es = true ∧ ds = []) ∨ KidsE 0 ds es)
    (hf : ds.find? (fun d => d.label == itoa 0) = none) : ds.length = 0 := by
  rcases hk with hk | hk
  · rw [hk.2]; rfl
  · have hk : KidsL 0 ds (Json.arr [] es).entries := kidsE_iff.1 hk
    cases ds with
    | nil => rfl
    | cons m ms =>
      cases es with
      | nil => cases hl
      | cons e es =>
        simp only [Json.entries, List.map_cons] at hk
        rw [KidsL] at hk
        have : m.label = itoa 0 := by rw [hk.1]; rfl
        simp [this] at hf

end Deep

section
variable {p p' : Parser} {path : List Text} {x : Json} (hx : x.wf) (hc : x.isContainer)
include hx hc

/-- **C145 (partial)** After `Set` of an object or array, whatever the tree was like, `Get` gives at the place the value, and inside it, behind one more
`0`, what a parser of the value gives; all other paths into it fail.  Missing: the paths without that `0` (`C145_fails`). -/
theorem C145_set_partial (h : p.Set x.render path = .done p' none) :
    ∃ p0, Parse x.render = .ok p0 ∧ p'.Get path = .ok x.render ∧
      ∀ r, p'.Get (path ++ itoa 0 :: r) = p0.Get r ∧ ∀ b, b ≠ itoa 0 → p'.Get (path ++ b :: r) = .err (.keyNotFound b) := by
  unfold Parser.Set at h
  split at h
  · cases h
  rename_i hl
  have hp : path ≠ [] := by rintro rfl; simp at hl
  split at h
  · cases h
  · cases h
  rename_i nd hw
  simp only [Deep.opens hc, if_true] at h
  split at h
  · rename_i n json hn hj
    have hn := Deep.new_node hx hc hn
    refine Deep.shown (l := nd.label) hx hc hp fun r => ?_
    unfold finish at h
    split at h
    · rename_i hr
      cases h
      rw [refresh_valueAt hr, Node.valueAt, Node.valueAt, Deep.walk_upd r path hw (by subst hn; rfl)]
      · subst hn; rfl
      · intro hm
        simp only [prefixes, List.mem_reverse, List.mem_map, List.mem_range'_1] at hm
        obtain ⟨i, hi, he⟩ := hm
        have he := congrArg List.length he
        have hp := List.length_pos_iff.2 hp
        simp only [List.length_take, List.length_append] at he
        omega
    · cases h
  · cases h

/-- **C145 (partial)** The same of `AddKeyValue` with a key of two bytes or more that the parser does not know yet. -/
theorem C145_addKeyValue_partial {k : Text} {y : Err} (hk : 2 ≤ k.length) (hn : p.Get (path ++ [k]) = .err y)
    (h : p.AddKeyValue k x.render path = .done p' none) :
    ∃ p0, Parse x.render = .ok p0 ∧ p'.Get (path ++ [k]) = .ok x.render ∧
      ∀ r, p'.Get (path ++ k :: itoa 0 :: r) = p0.Get r ∧ ∀ b, b ≠ itoa 0 → p'.Get (path ++ k :: b :: r) = .err (.keyNotFound b) := by
  have key : ∀ nd, p.core.walk path = .ok nd → ∀ r, (p.core.updAt (·.addChild (.mk k x.render [rootNode x])) path).valueAt (path ++ [k] ++ r) =
      (Node.mk k x.render [rootNode x]).valueAt r := by
    intro nd hw r
    rw [List.append_assoc, Node.valueAt, Node.valueAt, Deep.walk_upd _ path hw (by simp [Node.addChild]), List.singleton_append, Node.walk, Node.addChild, setDown_down,
      List.find?_append, Deep.find_none hw (Deep.get_none (by simp) hn)]
    simp [Node.label]
  have hgo : (if k.length ≥ 2 then (idx x.render 0).map fun c => c == 91 || c == 123 else .ok false) = .ok true := by
    rw [if_pos hk]
    exact Deep.first hc
  have hfin : ∀ q : Parser, (∀ r, q.core.valueAt (path ++ [k] ++ r) = (Node.mk k x.render [rootNode x]).valueAt r) →
      ∃ p0, Parse x.render = .ok p0 ∧ q.Get (path ++ [k]) = .ok x.render ∧
        ∀ r, q.Get (path ++ k :: itoa 0 :: r) = p0.Get r ∧ ∀ b, b ≠ itoa 0 → q.Get (path ++ k :: b :: r) = .err (.keyNotFound b) := by
    intro q hq
    have := Deep.shown hx hc (by simp) hq
    simpa only [List.append_assoc, List.singleton_append] using this
  unfold Parser.AddKeyValue at h
  simp only [hgo] at h
  split at h
  · cases h
  cases hg : p.Get path with
  | panic => rw [hg] at h; cases h
  | err e => rw [hg] at h; cases h
  | ok json =>
    rw [hg] at h
    simp only at h
    split at h
    · rename_i hl
      obtain rfl : path = [] := by simpa using hl
      split at h
      · cases h
      split at h
      · cases h
      split at h
      · rename_i n h1 h2
        cases h1
        obtain rfl := Deep.new_node hx hc h2
        split at h
        · cases h
          exact hfin _ (key p.core rfl)
        · cases h
      · cases h
    · rename_i hl
      have hp : path ≠ [] := by rintro rfl; simp at hl
      obtain ⟨nd, hw⟩ := Fresh.get_walk hp hg
      split at h
      · split at h
        · cases h
        split at h
        · cases h
        split at h
        · rename_i n h2
          obtain rfl := Deep.new_node hx hc h2
          split at h
          · cases h
          · cases h
          · unfold finish at h
            split at h
            · rename_i hr
              cases h
              refine hfin _ fun r => ?_
              rw [refresh_valueAt hr]
              · exact key nd hw r
              · intro hm
                simp only [prefixes, List.mem_reverse, List.mem_map, List.mem_range'_1] at hm
                obtain ⟨i, hi, he⟩ := hm
                have he := congrArg List.length he
                simp only [List.length_take, List.length_append, List.length_singleton] at he
                omega
            · cases h
        · cases h
      · cases h

/-- **C145 (partial)** After `AddKeyValue` with a key of one byte, which is never looked into, every path into the new value fails. -/
theorem C145_addKeyValue_short_partial {k : Text} {y : Err} (hk : k.length < 2) (hn : p.Get (path ++ [k]) = .err y)
    (h : p.AddKeyValue k x.render path = .done p' none) :
    p'.Get (path ++ [k]) = .ok x.render ∧ ∀ b r, p'.Get (path ++ k :: b :: r) = .err (.keyNotFound b) := by
  have key : ∀ nd, p.core.walk path = .ok nd → ∀ r, (p.core.updAt (·.addChild (.mk k x.render [])) path).valueAt (path ++ [k] ++ r) =
      (Node.mk k x.render []).valueAt r := by
    intro nd hw r
    rw [List.append_assoc, Node.valueAt, Node.valueAt, Deep.walk_upd _ path hw (by simp [Node.addChild]), List.singleton_append, Node.walk, Node.addChild, setDown_down,
      List.find?_append, Deep.find_none hw (Deep.get_none (by simp) hn)]
    simp [Node.label]
  have hgo : (if k.length ≥ 2 then (idx x.render 0).map fun c => c == 91 || c == 123 else .ok false) = .ok false := if_neg (by omega)
  have hfin : ∀ q : Parser, (∀ r, q.core.valueAt (path ++ [k] ++ r) = (Node.mk k x.render []).valueAt r) →
      q.Get (path ++ [k]) = .ok x.render ∧ ∀ b r, q.Get (path ++ k :: b :: r) = .err (.keyNotFound b) := by
    intro q hq
    refine ⟨?_, fun b r => ?_⟩
    · have := hq []
      rw [List.append_nil] at this
      rw [get_valueAt (by simp), this]
      exact Deep.clean_root hx hc
    · have := hq (b :: r)
      rw [List.append_assoc, List.singleton_append] at this
      rw [get_valueAt (by simp), this]
      rfl
  unfold Parser.AddKeyValue at h
  simp only [hgo] at h
  split at h
  · cases h
  cases hg : p.Get path with
  | panic => rw [hg] at h; cases h
  | err e => rw [hg] at h; cases h
  | ok json =>
    rw [hg] at h
    simp only at h
    split at h
    · rename_i hl
      obtain rfl : path = [] := by simpa using hl
      split at h
      · cases h
      split at h
      · cases h
      split at h
      · cases h
        exact hfin _ (key p.core rfl)
      · cases h
    · rename_i hl
      have hp : path ≠ [] := by rintro rfl; simp at hl
      obtain ⟨nd, hw⟩ := Fresh.get_walk hp hg
      split at h
      · split at h
        · cases h
        split at h
        · cases h
        · split at h
          · cases h
          · cases h
          · unfold finish at h
            split at h
            · rename_i hr
              cases h
              refine hfin _ fun r => ?_
              rw [refresh_valueAt hr]
              · exact key nd hw r
              · intro hm
                simp only [prefixes, List.mem_reverse, List.mem_map, List.mem_range'_1] at hm
                obtain ⟨i, hi, he⟩ := hm
                have he := congrArg List.length he
                simp only [List.length_take, List.length_append, List.length_singleton] at he
                omega
            · cases h
      · cases h

theorem Deep.add_at {nd : Node} (hp : path ≠ []) (hw : p.core.walk path = .ok nd) {n : Nat} (hlen : nd.down.length = n) (hnone : nd.down.find? (fun d => d.label == itoa n) = none)
    (h : p.Add x.render path = .done p' none) :
    ∃ p0, Parse x.render = .ok p0 ∧ p'.Get (path ++ [itoa n]) = .ok x.render ∧
      ∀ r, p'.Get (path ++ itoa n :: itoa 0 :: r) = p0.Get r ∧ ∀ b, b ≠ itoa 0 → p'.Get (path ++ itoa n :: b :: r) = .err (.keyNotFound b) := by
  have hl0 : (path.length == 0) = false := by cases path <;> simp_all
  unfold Parser.Add at h
  simp only [hw, hl0, Deep.opens hc, Bool.false_eq_true, if_false, if_true] at h
  split at h
  · cases h
  split at h
  · cases h
  · cases h
  rw [hlen] at h
  have key : ∀ r, (p.core.updAt (·.addChild (.mk (itoa n) x.render [rootNode x])) path).valueAt (path ++ [itoa n] ++ r) =
      (Node.mk (itoa n) x.render [rootNode x]).valueAt r := by
    intro r
    rw [List.append_assoc, Node.valueAt, Node.valueAt, Deep.walk_upd _ path hw (by simp [Node.addChild]), List.singleton_append, Node.walk, Node.addChild, setDown_down,
      List.find?_append, hnone]
    simp [Node.label]
  have hfin : ∀ q : Parser, (∀ r, q.core.valueAt (path ++ [itoa n] ++ r) = (Node.mk (itoa n) x.render [rootNode x]).valueAt r) →
      ∃ p0, Parse x.render = .ok p0 ∧ q.Get (path ++ [itoa n]) = .ok x.render ∧
        ∀ r, q.Get (path ++ itoa n :: itoa 0 :: r) = p0.Get r ∧ ∀ b, b ≠ itoa 0 → q.Get (path ++ itoa n :: b :: r) = .err (.keyNotFound b) := by
    intro q hq
    have := Deep.shown hx hc (by simp) hq
    simpa only [List.append_assoc, List.singleton_append] using this
  split at h
  · cases h
  split at h
  · rename_i n hn
    obtain rfl := Deep.new_node hx hc hn
    split at h
    · cases h
    · cases h
    · unfold finish at h
      split at h
      · rename_i hr
        cases h
        refine hfin _ fun r => (refresh_valueAt hr ?_).trans (key r)
        · intro hm
          simp only [prefixes, List.mem_reverse, List.mem_map, List.mem_range'_1] at hm
          obtain ⟨i, hi, he⟩ := hm
          have he := congrArg List.length he
          simp only [List.length_take, List.length_append, List.length_singleton] at he
          omega
      · cases h
  · cases h

/-- **C145 (partial)** The same of `Add` to an array with `es.length` elements, for parsers in step with their text. -/
theorem C145_add_partial {d : Doc} {g : Text} {es : List (Elem Json)} (hd : Reached p d) (hp : path ≠ []) (hg : d.get? path = some (.arr g es)) (hl : lone es = false)
    (h : p.Add x.render path = .done p' none) :
    ∃ p0, Parse x.render = .ok p0 ∧ p'.Get (path ++ [itoa es.length]) = .ok x.render ∧
      ∀ r, p'.Get (path ++ itoa es.length :: itoa 0 :: r) = p0.Get r ∧ ∀ b, b ≠ itoa 0 → p'.Get (path ++ itoa es.length :: b :: r) = .err (.keyNotFound b) := by
  obtain ⟨nd, hw⟩ := Deep.add_walk hp h
  have hk := (walk_agree path (session_sync hd).kids hg hp hw).2
  rw [Kids] at hk
  have hk : KidsL 0 nd.down (Json.arr g es).entries := kidsE_iff.1 (hk.resolve_left fun h => by rw [hl] at h; cases h.1)
  have hlen : nd.down.length = es.length := by rw [kidsL_length hk]; simp [Json.entries]
  exact Deep.add_at hx hc hp hw hlen
    (Deep.no_later hk (by intro e he; simp only [Json.entries, List.mem_map] at he; obtain ⟨y, -, rfl⟩ := he; rfl) (by simp [hlen])) h

/-- **C145 (partial)** After `Add` to an array of one scalar that the parser does not list, the new value is found at the index 0 of that scalar. -/
theorem C145_add_lone_partial {d : Doc} {g : Text} {es : List (Elem Json)} {y : Err} (hd : Reached p d) (hp : path ≠ []) (hg : d.get? path = some (.arr g es)) (hl : lone es = true)
    (hn : p.Get (path ++ [itoa 0]) = .err y) (h : p.Add x.render path = .done p' none) :
    ∃ p0, Parse x.render = .ok p0 ∧ p'.Get (path ++ [itoa 0]) = .ok x.render ∧
      ∀ r, p'.Get (path ++ itoa 0 :: itoa 0 :: r) = p0.Get r ∧ ∀ b, b ≠ itoa 0 → p'.Get (path ++ itoa 0 :: b :: r) = .err (.keyNotFound b) := by
  obtain ⟨nd, hw⟩ := Deep.add_walk hp h
  have hf := Deep.find_none hw (Deep.get_none (by simp) hn)
  have hk := (walk_agree path (session_sync hd).kids hg hp hw).2
  rw [Kids] at hk
  exact Deep.add_at (n := 0) hx hc hp hw (Deep.no_kids hl hk hf) hf h

/-- **C145 (partial)** The same of `Insert`. -/
theorem C145_insert_partial {d : Doc} {i : Int} {g : Text} {es : List (Elem Json)} (hd : Reached p d) (hp : path ≠ []) (hg : d.get? path = some (.arr g es))
    (h : p.Insert i x.render path = .done p' none) :
    ∃ p0, Parse x.render = .ok p0 ∧ p'.Get (path ++ [itoa i]) = .ok x.render ∧
      ∀ r, p'.Get (path ++ itoa i :: itoa 0 :: r) = p0.Get r ∧ ∀ b, b ≠ itoa 0 → p'.Get (path ++ itoa i :: b :: r) = .err (.keyNotFound b) := by
  have hs := session_sync hd
  have hl0 : (path.length == 0) = false := by cases path <;> simp_all
  unfold Parser.Insert at h
  simp only [hl0, Deep.opens hc, Bool.false_eq_true, if_false, if_true] at h
  split at h
  · cases h
  split at h
  · cases h
  · cases h
  split at h
  · cases h
  · cases h
  rename_i nd hw
  split at h
  · cases h
  split at h
  · rename_i n hn
    obtain rfl := Deep.new_node hx hc hn
    split at h
    · cases h
    · cases h
    rename_i nd1 hn1
    unfold Node.insertInto at hn1
    split at hn1
    · rename_i hne
      split at hn1
      · cases hn1
      split at hn1
      · cases hn1
      rename_i hi
      obtain ⟨i, rfl⟩ := Int.eq_ofNat_of_zero_le (Int.not_lt.1 hi)
      cases hn1
      have hk := (walk_agree path hs.kids hg hp hw).2
      rw [Kids] at hk
      have hk : KidsL 0 nd.down (Json.arr g es).entries := kidsE_iff.1 (hk.resolve_left fun h => by simp [h.2] at hne)
      have hnone : (relabel i 0 nd.down).find? (fun d => d.label == itoa i) = none :=
        Deep.find_relabel hk (by intro e he; simp only [Json.entries, List.mem_map] at he; obtain ⟨y, -, rfl⟩ := he; rfl)
      have key : ∀ r, (p.core.updAt (fun _ => (nd.setDown (relabel i 0 nd.down)).addChild (.mk (itoa i) x.render [rootNode x])) path).valueAt (path ++ [itoa i] ++ r) =
          (Node.mk (itoa i) x.render [rootNode x]).valueAt r := by
        intro r
        rw [List.append_assoc, Node.valueAt, Node.valueAt, Deep.walk_upd _ path hw (by simp [Node.addChild]), List.singleton_append, Node.walk, Node.addChild, setDown_down,
          setDown_down, List.find?_append, hnone]
        simp [Node.label]
      have hfin : ∀ q : Parser, (∀ r, q.core.valueAt (path ++ [itoa i] ++ r) = (Node.mk (itoa i) x.render [rootNode x]).valueAt r) →
          ∃ p0, Parse x.render = .ok p0 ∧ q.Get (path ++ [itoa i]) = .ok x.render ∧
            ∀ r, q.Get (path ++ itoa i :: itoa 0 :: r) = p0.Get r ∧ ∀ b, b ≠ itoa 0 → q.Get (path ++ itoa i :: b :: r) = .err (.keyNotFound b) := by
        intro q hq
        have := Deep.shown hx hc (by simp) hq
        simpa only [List.append_assoc, List.singleton_append] using this
      split at h
      · cases h
      · cases h
      · unfold finish at h
        split at h
        · rename_i hr
          cases h
          refine hfin _ fun r => (refresh_valueAt hr ?_).trans (key r)
          · intro hm
            simp only [prefixes, List.mem_reverse, List.mem_map, List.mem_range'_1] at hm
            obtain ⟨i, hi, he⟩ := hm
            have he := congrArg List.length he
            simp only [List.length_take, List.length_append, List.length_singleton] at he
            omega
        · cases h
    · cases hn1
  · cases h

theorem Deep.add_at_root {n : Nat} (hlen : p.core.down.length = n) (hnone : p.core.down.find? (fun d => d.label == itoa n) = none)
    (h : p.Add x.render [] = .done p' none) :
    ∃ p0, Parse x.render = .ok p0 ∧ p'.Get [itoa n] = .ok x.render ∧
      ∀ r, p'.Get (itoa n :: itoa 0 :: r) = p0.Get r ∧ ∀ b, b ≠ itoa 0 → p'.Get (itoa n :: b :: r) = .err (.keyNotFound b) := by
  unfold Parser.Add at h
  simp only [Node.walk, hlen, Deep.opens hc, if_true, List.length_nil, BEq.rfl] at h
  split at h
  · cases h
  split at h
  · cases h
  · cases h
  split at h
  · cases h
  split at h
  · rename_i n hn
    obtain rfl := Deep.new_node hx hc hn
    split at h
    · cases h
      exact Deep.shown (q := [itoa n]) hx hc (by simp) fun r => Deep.last_child (d := .mk (itoa n) x.render [rootNode x]) rfl hnone r
    · cases h
  · cases h

/-- **C145 (partial)** The same of `Add` to an array that is the root. -/
theorem C145_add_root_partial {d : Doc} {g : Text} {es : List (Elem Json)} (hd : Reached p d) (hg : d.root = .arr g es) (hl : lone es = false)
    (h : p.Add x.render [] = .done p' none) :
    ∃ p0, Parse x.render = .ok p0 ∧ p'.Get [itoa es.length] = .ok x.render ∧
      ∀ r, p'.Get (itoa es.length :: itoa 0 :: r) = p0.Get r ∧ ∀ b, b ≠ itoa 0 → p'.Get (itoa es.length :: b :: r) = .err (.keyNotFound b) := by
  have hk := (session_sync hd).kids
  rw [hg, Kids] at hk
  have hk : KidsL 0 p.core.down (Json.arr g es).entries := kidsE_iff.1 (hk.resolve_left fun h => by rw [hl] at h; cases h.1)
  have hlen : p.core.down.length = es.length := by rw [kidsL_length hk]; simp [Json.entries]
  have hnone : p.core.down.find? (fun d => d.label == itoa es.length) = none :=
    Deep.no_later hk (by intro e he; simp only [Json.entries, List.mem_map] at he; obtain ⟨y, -, rfl⟩ := he; rfl) (by simp [hlen])
  exact Deep.add_at_root hx hc hlen hnone h

/-- **C145 (partial)** `C145_add_lone_partial` for the root. -/
theorem C145_add_root_lone_partial {d : Doc} {g : Text} {es : List (Elem Json)} {y : Err} (hd : Reached p d) (hg : d.root = .arr g es) (hl : lone es = true)
    (hn : p.Get [itoa 0] = .err y) (h : p.Add x.render [] = .done p' none) :
    ∃ p0, Parse x.render = .ok p0 ∧ p'.Get [itoa 0] = .ok x.render ∧
      ∀ r, p'.Get (itoa 0 :: itoa 0 :: r) = p0.Get r ∧ ∀ b, b ≠ itoa 0 → p'.Get (itoa 0 :: b :: r) = .err (.keyNotFound b) := by
  have hf := Deep.find_none (path := []) rfl (Deep.get_none (by simp) hn)
  have hk := (session_sync hd).kids
  rw [hg, Kids] at hk
  exact Deep.add_at_root (n := 0) hx hc (Deep.no_kids hl hk hf) hf h

/-- **C145 (partial)** After `Insert` of an object or array into the array that is the root, `Get` gives the empty text where the new value is; what is
inside it is read as after the other calls. -/
theorem C145_insert_root_partial {d : Doc} {i : Int} {g : Text} {es : List (Elem Json)} (hd : Reached p d) (hg : d.root = .arr g es)
    (h : p.Insert i x.render [] = .done p' none) :
    ∃ p0, Parse x.render = .ok p0 ∧ p'.Get [itoa i] = .ok [] ∧
      ∀ r, p'.Get (itoa i :: itoa 0 :: r) = p0.Get r ∧ ∀ b, b ≠ itoa 0 → p'.Get (itoa i :: b :: r) = .err (.keyNotFound b) := by
  have hk := (session_sync hd).kids
  rw [hg, Kids] at hk
  unfold Parser.Insert at h
  simp only [Node.walk, Deep.opens hc, if_true, List.length_nil, BEq.rfl] at h
  split at h
  · cases h
  split at h
  · cases h
  · cases h
  split at h
  · cases h
  split at h
  · rename_i n hn
    obtain rfl := Deep.new_node hx hc hn
    split at h
    · cases h
    · cases h
    rename_i nd1 hn1
    unfold Node.insertInto at hn1
    split at hn1
    · rename_i hne
      split at hn1
      · cases hn1
      split at hn1
      · cases hn1
      rename_i hi
      obtain ⟨i, rfl⟩ := Int.eq_ofNat_of_zero_le (Int.not_lt.1 hi)
      cases hn1
      have hk : KidsL 0 p.core.down (Json.arr g es).entries := kidsE_iff.1 (hk.resolve_left fun h => by simp [h.2] at hne)
      have hnone : (relabel i 0 p.core.down).find? (fun d => d.label == itoa i) = none :=
        Deep.find_relabel hk (by intro e he; simp only [Json.entries, List.mem_map] at he; obtain ⟨y, -, rfl⟩ := he; rfl)
      split at h
      · cases h
      · cases h
      · split at h
        · rename_i nd2 hn2
          cases h
          unfold Node.insertInto at hn2
          split at hn2
          · split at hn2
            · cases hn2
            cases hn2
            refine Deep.shown_at (u := []) (q := [itoa i]) hx hc (by simp) fun r => Deep.last_child (d := .mk (itoa i) [] [rootNode x]) rfl ?_ r
            rw [setDown_down, setDown_down, Int.toNat_natCast, Deep.relabel_again]
            exact hnone
          · cases hn2
        · cases h
    · cases hn1
  · cases h

end

/-- `Get` does not find what lies inside the object that `Set` wrote, and finds it behind a `0`. -/
theorem C145_fails : session (str "{\"a\":1}") (·.Set (str "{\"b\":[5,6]}") [str "a"])
      (fun p => (p.json, p.Get [str "a", str "b"], p.Get [str "a", str "0", str "b", str "1"])) =
    some ((str "{\"a\":{\"b\":[5,6]}}", .err (.keyNotFound (str "b")), .ok (str "6")), none) ∧
    Get (str "{\"a\":{\"b\":[5,6]}}") [str "a", str "b"] = .ok (str "[5,6]") := by decide +kernel

/-- A key of one byte, and an array of one scalar: the new value is the second element, and found as the first. -/
example : session (str "{\"a\":{}}") (·.AddKeyValue (str "k") (str "[1,2]") [str "a"])
      (fun p => (p.json, p.Get [str "a", str "k"], p.Get [str "a", str "k", str "0", str "1"])) =
    some ((str "{\"a\":{\"k\":[1,2]}}", .ok (str "[1,2]"), .err (.keyNotFound (str "0"))), none) ∧
    session (str "{\"a\":[1]}") (fun p => .done p none) (fun p => p.Get [str "a", str "0"]) = some (.err (.keyNotFound (str "0")), none) ∧
    session (str "{\"a\":[1]}") (·.Add (str "[3,4]") [str "a"]) (fun p => (p.json, p.Get [str "a", str "0"], p.Get [str "a", str "1"])) =
    some ((str "{\"a\":[1,[3,4]]}", .ok (str "[3,4]"), .err (.keyNotFound (str "1"))), none) ∧
    Get (str "{\"a\":[1,[3,4]]}") [str "a", str "1"] = .ok (str "[3,4]") ∧
    session (str "[1]") (fun p => .done p none) (fun p => p.Get [str "0"]) = some (.err (.keyNotFound (str "0")), none) ∧
    session (str "[1]") (·.Add (str "[3,4]") []) (fun p => (p.json, p.Get [str "0"], p.Get [str "1"])) =
    some ((str "[1,[3,4]]", .ok (str "[3,4]"), .err (.keyNotFound (str "1"))), none) := by
  refine ⟨?_, ?_, ?_, ?_, ?_, ?_⟩ <;> decide +kernel

/-- Calls that meet the conditions of the other three. -/
example : session (str "{\"a\":{}}") (·.AddKeyValue (str "key") (str "[1,2]") [str "a"])
      (fun p => (p.json, p.Get [str "a", str "key", str "1"], p.Get [str "a", str "key", str "0", str "1"])) =
    some ((str "{\"a\":{\"key\":[1,2]}}", .err (.keyNotFound (str "1")), .ok (str "2")), none) ∧
    session (str "{\"a\":[1,2]}") (·.Add (str "[3,4]") [str "a"]) (fun p => (p.json, p.Get [str "a", str "2", str "1"], p.Get [str "a", str "2", str "0", str "1"])) =
    some ((str "{\"a\":[1,2,[3,4]]}", .err (.keyNotFound (str "1")), .ok (str "4")), none) ∧
    session (str "{\"a\":[1,2]}") (·.Insert 1 (str "[3,4]") [str "a"]) (fun p => (p.json, p.Get [str "a", str "1", str "1"], p.Get [str "a", str "1", str "0", str "1"])) =
    some ((str "{\"a\":[1,[3,4],2]}", .err (.keyNotFound (str "1")), .ok (str "4")), none) := by
  refine ⟨?_, ?_, ?_⟩ <;> decide +kernel

/-- A parser and an array that meet the conditions of `C145_add_partial` and `C145_insert_partial`, with calls that succeed. -/
example : ∃ p d es, Reached p d ∧ d.get? [str "a"] = some (.arr [] es) ∧ lone es = false ∧
    (∃ p', p.Add (str "[3,4]") [str "a"] = .done p' none) ∧ (∃ p', p.Insert 1 (str "[3,4]") [str "a"] = .done p' none) := by
  let es : List (Elem Json) := [⟨[], .lit (str "1"), []⟩, ⟨[], .lit (str "2"), []⟩]
  let d : Doc := ⟨[], .obj [] [⟨[], str "a", [], [], .arr [] es, []⟩], []⟩
  have hr : d.render = str "{\"a\":[1,2]}" := by decide +kernel
  have hw : d.wf := by decide +kernel
  obtain ⟨p, h1, -⟩ := parse_sync hw rfl
  have h2 : session (str "{\"a\":[1,2]}") (·.Add (str "[3,4]") [str "a"]) Parser.json = some (str "{\"a\":[1,2,[3,4]]}", none) := by decide +kernel
  have h3 : session (str "{\"a\":[1,2]}") (·.Insert 1 (str "[3,4]") [str "a"]) Parser.json = some (str "{\"a\":[1,[3,4],2]}", none) := by decide +kernel
  obtain ⟨P, P', e1, e2, -⟩ := session_some h2
  obtain ⟨Q, Q', e3, e4, -⟩ := session_some h3
  have hp := h1
  rw [hr] at hp
  rw [hp] at e1 e3
  cases e1
  cases e3
  exact ⟨_, d, es, Reached.parse hw rfl h1, by decide +kernel, rfl, ⟨_, e2⟩, ⟨_, e4⟩⟩

/-- A parser whose root is an array, with calls that succeed there; the inserted value is in the text, and `Get` gives the empty text for it. -/
example : ∃ p d es, Reached p d ∧ d.root = .arr [] es ∧ lone es = false ∧ (∃ p', p.Add (str "[3,4]") [] = .done p' none ∧ p'.json = str "[1,2,[3,4]]") ∧
    ∃ p', p.Insert 1 (str "[3,4]") [] = .done p' none ∧ p'.json = str "[1,[3,4],2]" ∧ p'.Get [str "1"] = .ok [] ∧ Get p'.json [str "1"] = .ok (str "[3,4]") := by
  let es : List (Elem Json) := [⟨[], .lit (str "1"), []⟩, ⟨[], .lit (str "2"), []⟩]
  let d : Doc := ⟨[], .arr [] es, []⟩
  have hr : d.render = str "[1,2]" := by decide +kernel
  have hw : d.wf := by decide +kernel
  obtain ⟨p, h1, -⟩ := parse_sync hw rfl
  have h2 : session (str "[1,2]") (·.Add (str "[3,4]") []) Parser.json = some (str "[1,2,[3,4]]", none) := by decide +kernel
  have h3 : session (str "[1,2]") (·.Insert 1 (str "[3,4]") []) (fun p => (p.json, p.Get [str "1"], Get p.json [str "1"])) =
    some ((str "[1,[3,4],2]", .ok [], .ok (str "[3,4]")), none) := by decide +kernel
  obtain ⟨P, P', e1, e2, e5⟩ := session_some h2
  obtain ⟨Q, Q', e3, e4, e6⟩ := session_some h3
  simp only [Prod.mk.injEq] at e6
  have hp := h1
  rw [hr] at hp
  rw [hp] at e1 e3
  cases e1
  cases e3
  exact ⟨_, d, es, Reached.parse hw rfl h1, rfl, rfl, ⟨_, e2, e5⟩, ⟨_, e4, e6⟩⟩

end Jin
