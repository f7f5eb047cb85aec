import Verif.Props.ParserMore
import Verif.Props.ParserNil
/-!
# Property C143: a successful call brings the containers around its place up to date
-/

namespace Jin
open Spec

/-- What `Get` of the parser gives for a container of its text is that container. -/
def Current (p : Parser) (q : List Text) : Prop :=
  ∀ (d : Doc) (w : Json), p.json = d.render → d.wf → d.get? q = some w → w.isContainer = true → p.Get q = .ok w.render

namespace Fresh

theorem find_hit {b : Bytes} {f : Node → Node} {d : Node} : ∀ {ds : List Node}, ds.find? (fun d => d.label == b) = some d → (f d).label = d.label →
    (replaceFirst (fun d => d.label == b) f ds).find? (fun d => d.label == b) = some (f d)
  | [], h, _ => by cases h
  | x :: ds, h, hl => by
    rw [List.find?_cons] at h
    cases hx : x.label == b with
    | true =>
      rw [hx] at h
      cases h
      have : ((f d).label == b) = true := by rw [hl]; exact hx
      simp [replaceFirst, hx, this]
    | false =>
      rw [hx] at h
      simp only [replaceFirst, hx, Bool.false_eq_true, if_false, List.find?_cons]
      exact find_hit h hl

theorem walk_upd {f : Node → Node} (r : List Bytes) : ∀ (q : List Bytes) {n nd : Node}, n.walk (q ++ r) = .ok nd → (r = [] → (f nd).label = nd.label) →
    ∃ m, (n.updAt f (q ++ r)).walk q = .ok m
  | [], n, nd, _, _ => ⟨_, rfl⟩
  | b :: q, n, nd, h, hr => by
    rw [List.cons_append, Node.walk] at h
    cases hf : n.down.find? (fun d => d.label == b) with
    | none => rw [hf] at h; cases h
    | some d =>
      rw [hf] at h
      have hl : (d.updAt f (q ++ r)).label = d.label := by
        cases e : q ++ r with
        | nil =>
          have h : d.walk (q ++ r) = .ok nd := h
          rw [e, Node.walk] at h
          cases h
          rw [Node.updAt]
          exact hr (List.append_eq_nil_iff.1 e).2
        | cons x xs => rw [Node.updAt, setDown_label]
      rw [List.cons_append, Node.updAt, Node.walk, setDown_down, find_hit hf hl]
      exact walk_upd r q h hr

theorem valueAt_of {n nd : Node} {q : List Bytes} (h : n.walk q = .ok nd) : n.valueAt q = .ok nd.value := by
  rw [Node.valueAt, h]; rfl

theorem walk_of {n : Node} {q : List Bytes} {v : Bytes} (h : n.valueAt q = .ok v) : ∃ nd, n.walk q = .ok nd := by
  rw [Node.valueAt] at h
  cases hw : n.walk q with
  | ok nd => exact ⟨nd, rfl⟩
  | err e => rw [hw] at h; cases h
  | panic => rw [hw] at h; cases h

theorem walk_set {n nd : Node} {q q' : List Bytes} {v : Bytes} (h : n.walk q = .ok nd) : ∃ m, (n.updAt (·.setValue v) q').walk q = .ok m := by
  by_cases e : q = q'
  · subst e
    exact walk_of (valueAt_set_eq q h)
  · exact walk_of (v := nd.value) (by rw [valueAt_set_ne q' q n e]; exact valueAt_of h)

theorem refresh_hit {json : Bytes} {q : List Bytes} : ∀ {qs : List (List Bytes)} {n n' nd : Node}, refresh json qs n = .ok (n', none) → q ∈ qs →
    n.walk q = .ok nd → ∃ v, Get json q = .ok v ∧ n'.valueAt q = .ok v
  | [], _, _, _, _, hq, _ => by cases hq
  | x :: qs, n, n', nd, h, hq, hw => by
    rw [refresh] at h
    split at h
    · cases h
    · cases h
    · rename_i v hv
      by_cases hm : q ∈ qs
      · obtain ⟨m, hm'⟩ := walk_set (v := v) (q' := x) hw
        exact refresh_hit h hm hm'
      · obtain rfl : q = x := (List.mem_cons.1 hq).resolve_right hm
        exact ⟨v, hv, by rw [refresh_valueAt h hm]; exact valueAt_set_eq q hw⟩

theorem quiet_miss {json : Bytes} {q : List Bytes} : ∀ {qs : List (List Bytes)} {n n' : Node}, refreshQuiet json qs n = .ok n' → q ∉ qs →
    n'.valueAt q = n.valueAt q
  | [], _, _, h, _ => by cases h; rfl
  | x :: qs, n, n', h, hq => by
    simp only [List.mem_cons, not_or] at hq
    rw [refreshQuiet] at h
    split at h
    · cases h
    · rw [quiet_miss h hq.2]; exact valueAt_set_ne x q n hq.1
    · rw [quiet_miss h hq.2]; exact valueAt_set_ne x q n hq.1

theorem quiet_hit {json : Bytes} {q : List Bytes} {v : Bytes} (hg : Get json q = .ok v) : ∀ {qs : List (List Bytes)} {n n' nd : Node},
    refreshQuiet json qs n = .ok n' → q ∈ qs → n.walk q = .ok nd → n'.valueAt q = .ok v
  | [], _, _, _, _, hq, _ => by cases hq
  | x :: qs, n, n', nd, h, hq, hw => by
    rw [refreshQuiet] at h
    by_cases hm : q ∈ qs
    · split at h
      · cases h
      · obtain ⟨m, hm'⟩ := walk_set (v := []) (q' := x) hw
        exact quiet_hit hg h hm hm'
      · rename_i u hu
        obtain ⟨m, hm'⟩ := walk_set (v := u) (q' := x) hw
        exact quiet_hit hg h hm hm'
    · obtain rfl : q = x := (List.mem_cons.1 hq).resolve_right hm
      rw [hg] at h
      rw [quiet_miss h hm]
      exact valueAt_set_eq q hw

theorem current_of {p : Parser} {q : List Text} (hq : q ≠ []) (h : ∀ v, Get p.json q = .ok v → p.core.valueAt q = .ok v) : Current p q := by
  intro d w hj hd hg hc
  have hw := get_wf q (doc_wf.1 hd).2.1 hg
  have := h w.content (by rw [hj]; exact get_ok hd hq hg)
  rw [get_valueAt hq, this]
  have hcw : w.content = w.render := by cases w <;> first | rfl | cases hc
  have := cleanValue_ok (l := []) (r := []) (v := w) rfl hw rfl
  simp only [List.nil_append, List.append_nil] at this
  rw [hcw] at this ⊢
  exact this

theorem get_walk {p : Parser} {path : List Bytes} {v : Bytes} (hp : path ≠ []) (h : p.Get path = .ok v) : ∃ nd, p.core.walk path = .ok nd := by
  have hl : (path.length == 0) = false := by cases path <;> simp_all
  simp only [Parser.Get, hl, Bool.false_eq_true, if_false] at h
  cases hw : p.core.walk path with
  | ok nd => exact ⟨nd, rfl⟩
  | err e => rw [hw] at h; cases h
  | panic => rw [hw] at h; cases h

theorem prefix_mem {path q : List Bytes} {m c : Nat} (h : q <+: path) (h1 : m ≤ q.length) (h2 : q.length ≤ c) : q ∈ prefixes path m c := by
  simp only [prefixes, List.mem_reverse, List.mem_map, List.mem_range'_1]
  exact ⟨q.length, ⟨h1, by omega⟩, (List.prefix_iff_eq_take.1 h).symm⟩

theorem finish_hit {json : Bytes} {n nd : Node} {q : List Bytes} {qs : List (List Bytes)} {p' : Parser} (h : finish json n qs = .done p' none) (hq : q ∈ qs)
    (h0 : q ≠ []) (hw : n.walk q = .ok nd) : Current p' q := by
  unfold finish at h
  split at h
  · rename_i hr
    cases h
    refine current_of h0 fun v hv => ?_
    obtain ⟨u, h1, h2⟩ := refresh_hit hr hq hw
    have h1 : Get json q = .ok u := h1
    have hv : Get json q = .ok v := hv
    rw [h1] at hv
    cases hv
    exact h2
  · cases h

end Fresh

section
variable {p p' : Parser} {path q : List Text} (h0 : q ≠ []) (hq : q <+: path)
include h0 hq

/-- **C143** After `Set` of the parser that reports no error, the containers around the value are current, whatever the tree was before. -/
theorem C143_set {v : Text} (hn : q ≠ path) (h : p.Set v path = .done p' none) : Current p' q := by
  obtain ⟨r, rfl⟩ := hq
  have hr : r ≠ [] := by rintro rfl; simp at hn
  have hl : q.length ≤ (q ++ r).length - 1 := by have := List.length_pos_iff.2 hr; simp; omega
  have h1 : 1 ≤ q.length := List.length_pos_iff.2 h0
  unfold Parser.Set at h
  split at h
  · cases h
  split at h
  · cases h
  · cases h
  · rename_i nd hw
    dsimp only at h
    split at h
    · exact Fresh.finish_hit h (Fresh.prefix_mem (List.prefix_append ..) h1 hl) h0 (Fresh.walk_upd r q hw (fun e => absurd e hr)).choose_spec
    · cases h

/-- **C143** The same of `SetKey`. -/
theorem C143_setKey {k : Text} (hn : q ≠ path) (h : p.SetKey k path = .done p' none) : Current p' q := by
  obtain ⟨r, rfl⟩ := hq
  have hr : r ≠ [] := by rintro rfl; simp at hn
  have hl : q.length ≤ (q ++ r).length - 1 := by have := List.length_pos_iff.2 hr; simp; omega
  have h1 : 1 ≤ q.length := List.length_pos_iff.2 h0
  unfold Parser.SetKey at h
  split at h
  · cases h
  split at h
  · cases h
  split at h
  · cases h
  · cases h
  · rename_i nd up hw _
    split at h
    · cases h
    split at h
    · cases h
    split at h
    · rename_i hrq
      cases h
      obtain ⟨m, hm⟩ := Fresh.walk_upd (f := (·.setLabel k)) r q hw (fun e => absurd e hr)
      exact Fresh.current_of h0 fun v hv => Fresh.quiet_hit hv hrq (Fresh.prefix_mem (List.prefix_append ..) h1 hl) hm
    · cases h
  · cases h

/-- **C143** The same of `Delete`. -/
theorem C143_delete (hn : q ≠ path) (h : p.Delete path = .done p' none) : Current p' q := by
  obtain ⟨r, rfl⟩ := hq
  have hr : r ≠ [] := by rintro rfl; simp at hn
  have hl : q.length ≤ (q ++ r).length - 1 := by have := List.length_pos_iff.2 hr; simp; omega
  have h1 : 1 ≤ q.length := List.length_pos_iff.2 h0
  obtain ⟨r', x, rfl⟩ : ∃ r' x, r = r' ++ [x] := ⟨_, _, (List.dropLast_concat_getLast hr).symm⟩
  unfold Parser.Delete at h
  split at h
  · cases h
  split at h
  · cases h
  · cases h
  · rename_i nd hw
    dsimp only at h
    split at h
    · cases h
    · cases h
    · have e : (q ++ (r' ++ [x])).dropLast = q ++ r' := by rw [← List.append_assoc, List.dropLast_concat]
      rw [e] at h
      rw [← List.append_assoc] at hw
      obtain ⟨u, hu, -⟩ := walk_snoc _ hw
      obtain ⟨m, hm⟩ := Fresh.walk_upd (f := (·.deAttach nd.label)) r' q hu (fun _ => by simp [Node.deAttach])
      exact Fresh.finish_hit h (Fresh.prefix_mem (List.prefix_append ..) h1 hl) h0 hm

/-- **C143** After `AddKeyValue` that reports no error, the object and the containers around it are current. -/
theorem C143_addKeyValue {k v : Text} (h : p.AddKeyValue k v path = .done p' none) : Current p' q := by
  obtain ⟨r, rfl⟩ := hq
  have h1 : 1 ≤ q.length := List.length_pos_iff.2 h0
  have hl : q.length ≤ (q ++ r).length := by simp
  have hp0 : ((q ++ r).length == 0) = false := by simpa using fun e => absurd e h0
  unfold Parser.AddKeyValue at h
  simp only [hp0, Bool.false_eq_true, if_false] at h
  cases hg : p.Get (q ++ r) with
  | panic => rw [hg] at h; simp only at h; split at h <;> cases h
  | err e => rw [hg] at h; simp only at h; split at h <;> cases h
  | ok json =>
    obtain ⟨nd, hw⟩ := Fresh.get_walk (by simp [h0]) hg
    rw [hg] at h
    simp only at h
    have hm := fun n : Node => (Fresh.walk_upd (f := (·.addChild n)) r q hw (fun _ => by simp [Node.addChild])).choose_spec
    repeat' split at h
    all_goals first | (cases h; done) | skip
    all_goals exact Fresh.finish_hit h (Fresh.prefix_mem (List.prefix_append ..) h1 hl) h0 (hm _)

/-- **C143** The same of `AddKeyValue` with nil for the value. -/
theorem C143_addKeyValueNil {k : Text} (h : p.AddKeyValueNil k path = .done p' none) : Current p' q := by
  obtain ⟨r, rfl⟩ := hq
  have h1 : 1 ≤ q.length := List.length_pos_iff.2 h0
  have hl : q.length ≤ (q ++ r).length := by simp
  have hp0 : ((q ++ r).length == 0) = false := by simpa using fun e => absurd e h0
  unfold Parser.AddKeyValueNil at h
  simp only [hp0, Bool.false_eq_true, if_false] at h
  cases hg : p.Get (q ++ r) with
  | panic => rw [hg] at h; simp only at h; split at h <;> cases h
  | err e => rw [hg] at h; simp only at h; split at h <;> cases h
  | ok json =>
    obtain ⟨nd, hw⟩ := Fresh.get_walk (by simp [h0]) hg
    rw [hg] at h
    simp only at h
    have hm := fun n : Node => (Fresh.walk_upd (f := (·.addChild n)) r q hw (fun _ => by simp [Node.addChild])).choose_spec
    repeat' split at h
    all_goals first | (cases h; done) | skip
    all_goals exact Fresh.finish_hit h (Fresh.prefix_mem (List.prefix_append ..) h1 hl) h0 (hm _)

/-- **C143 (partial)** The same of `Add`, for values that are no containers; for a container, without the outermost container around the array.  Missing:
that one (`C143_fails`). -/
theorem C143_add_partial {v : Text} (hv : 2 ≤ q.length ∨ v.head? ≠ some 0x5B ∧ v.head? ≠ some 0x7B) (h : p.Add v path = .done p' none) : Current p' q := by
  obtain ⟨r, rfl⟩ := hq
  have h1 : (if opensContainer v then 2 else 1) ≤ q.length := by
    have h1 : 1 ≤ q.length := List.length_pos_iff.2 h0
    rcases hv with hv | hv
    · split <;> omega
    · have : opensContainer v = false := by unfold opensContainer; simp [hv.1, hv.2]
      rw [this]; exact h1
  have hl : q.length ≤ (q ++ r).length := by simp
  have hp0 : ((q ++ r).length == 0) = false := by simpa using fun e => absurd e h0
  unfold Parser.Add at h
  simp only [hp0, Bool.false_eq_true, if_false] at h
  cases hg : p.Get (q ++ r) with
  | panic => rw [hg] at h; simp only at h; split at h <;> cases h
  | err e => rw [hg] at h; simp only at h; split at h <;> cases h
  | ok json =>
    obtain ⟨nd, hw⟩ := Fresh.get_walk (by simp [h0]) hg
    rw [hg, hw] at h
    simp only at h
    have hm := fun n : Node => (Fresh.walk_upd (f := (·.addChild n)) r q hw (fun _ => by simp [Node.addChild])).choose_spec
    generalize opensContainer v = c at h h1
    split at h
    · cases h
    split at h
    · cases h
    split at h
    · split at h
      · cases h
      · cases h
      · exact Fresh.finish_hit h (Fresh.prefix_mem (List.prefix_append ..) h1 hl) h0 (hm _)
    · cases h

/-- **C143** The same of `Insert`. -/
theorem C143_insert {i : Int} {v : Text} (h : p.Insert i v path = .done p' none) : Current p' q := by
  obtain ⟨r, rfl⟩ := hq
  have h1 : 1 ≤ q.length := List.length_pos_iff.2 h0
  have hl : q.length ≤ (q ++ r).length := by simp
  have hp0 : ((q ++ r).length == 0) = false := by simpa using fun e => absurd e h0
  unfold Parser.Insert at h
  simp only [hp0, Bool.false_eq_true, if_false] at h
  cases hg : p.Get (q ++ r) with
  | panic => rw [hg] at h; simp only at h; split at h <;> cases h
  | err e => rw [hg] at h; simp only at h; split at h <;> cases h
  | ok json =>
    obtain ⟨nd, hw⟩ := Fresh.get_walk (by simp [h0]) hg
    rw [hg, hw] at h
    simp only at h
    split at h
    · cases h
    split at h
    · cases h
    split at h
    · split at h
      · cases h
      · cases h
      · rename_i curr1 hc
        have hlab : curr1.label = nd.label := by
          unfold Node.insertInto at hc
          repeat' split at hc
          all_goals first | (cases hc; done) | (cases hc; simp)
        split at h
        · cases h
        · cases h
        · exact Fresh.finish_hit h (Fresh.prefix_mem (List.prefix_append ..) h1 hl) h0
            (Fresh.walk_upd r q hw (fun _ => by simp [Node.addChild, hlab])).choose_spec
    · cases h

end

/-- `Add` of a container leaves the outermost container around it as it was. -/
theorem C143_fails : session (str "{\"a\":{\"b\":[]}}") (·.Add (str "[1]") [str "a", str "b"]) (fun p => (p.json, p.Get [str "a"], p.Get [str "a", str "b"])) =
    some ((str "{\"a\":{\"b\":[[1]]}}", .ok (str "{\"b\":[]}"), .ok (str "[[1]]")), none) := by decide +kernel

/-- A state out of step (`Delete` of an element leaves the labels as they were), and a `Set` in it that brings the array up to date. -/
example : session (str "{\"a\":[1,2,3]}") (·.Delete [str "a", str "0"]) (fun p => (p.core.walk [str "a", str "1"]).map Node.value) = some (.ok (str "2"), none) ∧
    ((Parse (str "{\"a\":[1,2,3]}")).map fun p => match p.Delete [str "a", str "0"] with
      | .done p _ => (match p.Set (str "7") [str "a", str "1"] with | .done p e => (p.json, p.Get [str "a"], e) | .panic => ([], .panic, none))
      | .panic => ([], .panic, none)) = .ok (str "{\"a\":[2,7]}", .ok (str "[2,7]"), none) := by decide +kernel

end Jin
