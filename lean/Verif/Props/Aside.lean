import Verif.Props.Fresh
/-!
# Property C144: a call on a parser leaves what lies elsewhere as it was
-/

namespace Jin
open Spec

/-- Neither path leads through the place of the other. -/
def Aside (path q : List Text) : Prop := ¬ q <+: path ∧ ¬ path <+: q

namespace Aside

theorem find_ne {x b : Bytes} (hb : b ≠ x) {f : Node → Node} (hf : ∀ d : Node, d.label = x → (f d).label ≠ b) : ∀ ds : List Node,
    (replaceFirst (fun d => d.label == x) f ds).find? (fun d => d.label == b) = ds.find? (fun d => d.label == b)
  | [] => rfl
  | d :: ds => by
    by_cases hd : d.label = x
    · have h1 : ((f d).label == b) = false := by simpa using hf d hd
      have h2 : (d.label == b) = false := by rw [hd]; simpa using fun e => hb e.symm
      simp only [replaceFirst, hd, beq_self_eq_true, if_true, List.find?_cons, h1]
      rw [← hd, h2]
    · have h1 : (d.label == x) = false := by simpa using hd
      simp only [replaceFirst, h1, Bool.false_eq_true, if_false, List.find?_cons]
      rw [find_ne hb hf ds]

theorem find_filter {x b : Bytes} (hb : b ≠ x) : ∀ ds : List Node,
    (ds.filter fun d => d.label != x).find? (fun d => d.label == b) = ds.find? (fun d => d.label == b)
  | [] => rfl
  | d :: ds => by
    by_cases hd : d.label = x
    · have h1 : (d.label != x) = false := by simpa using hd
      have h2 : (d.label == b) = false := by rw [hd]; simpa using fun e => hb e.symm
      rw [List.filter_cons, h1, List.find?_cons, h2]
      exact find_filter hb ds
    · have h1 : (d.label != x) = true := by simpa using hd
      rw [List.filter_cons, h1]
      simp only [if_true, List.find?_cons]
      rw [find_filter hb ds]

theorem upd_label {f : Node → Node} {d : Node} {x : Bytes} {pre : List Bytes} : (d.updAt f (pre ++ [x])).label = d.label := by
  cases pre <;> simp [Node.updAt]

/-- A change of one node that gives it the label `y` shows only on paths through it. -/
theorem walk_keep {f : Node → Node} {x y : Bytes} (hf : ∀ d : Node, d.label = x → (f d).label = y) : ∀ (pre q : List Bytes) (n : Node), ¬ q <+: pre ++ [x] →
    ¬ pre ++ [x] <+: q → ¬ pre ++ [y] <+: q → (n.updAt f (pre ++ [x])).walk q = n.walk q
  | [], [], _, h, _, _ => absurd List.nil_prefix h
  | _ :: _, [], _, h, _, _ => absurd List.nil_prefix h
  | [], b :: r, n, _, h1, h2 => by
    have hx : b ≠ x := fun e => h1 (by simp [e])
    have hy : b ≠ y := fun e => h2 (by simp [e])
    simp only [List.nil_append, Node.updAt, Node.walk, setDown_down]
    rw [find_ne hx (fun d hd e => hy (e.symm.trans (hf d hd)))]
  | a :: pre, b :: r, n, h0, h1, h2 => by
    simp only [List.cons_append, Node.updAt, Node.walk, setDown_down]
    rw [find_replaceFirst (fun d => upd_label)]
    cases n.down.find? (fun d => d.label == b) with
    | none => rfl
    | some d =>
      by_cases hab : a = b
      · subst hab
        simp only [Option.map_some, if_true]
        refine walk_keep hf pre r d (fun h => h0 ?_) (fun h => h1 ?_) (fun h => h2 ?_) <;> simpa using h
      · simp [hab]

theorem walk_cut {x : Bytes} : ∀ (pre q : List Bytes) (n : Node), ¬ q <+: pre ++ [x] → ¬ pre ++ [x] <+: q →
    (n.updAt (·.deAttach x) pre).walk q = n.walk q
  | [], [], _, h, _ => absurd List.nil_prefix h
  | _ :: _, [], _, h, _ => absurd List.nil_prefix h
  | [], b :: r, n, _, h1 => by
    have hx : b ≠ x := fun e => h1 (by simp [e])
    simp only [Node.updAt, Node.deAttach, Node.walk, setDown_down]
    rw [find_filter hx]
  | a :: pre, b :: r, n, h0, h1 => by
    simp only [Node.updAt, Node.walk, setDown_down]
    rw [find_replaceFirst (fun d => updAt_label (by simp [Node.deAttach]) d pre)]
    cases n.down.find? (fun d => d.label == b) with
    | none => rfl
    | some d =>
      by_cases hab : a = b
      · subst hab
        simp only [Option.map_some, if_true]
        refine walk_cut pre r d (fun h => h0 ?_) (fun h => h1 ?_) <;> simpa using h
      · simp [hab]

theorem walk_last {x : Bytes} : ∀ {pre : List Bytes} {n nd : Node}, n.walk (pre ++ [x]) = .ok nd → nd.label = x
  | [], n, nd, h => by
    rw [List.nil_append, Node.walk] at h
    cases hf : n.down.find? (fun d => d.label == x) with
    | none => rw [hf] at h; cases h
    | some d =>
      rw [hf] at h
      have h : d.walk [] = .ok nd := h
      rw [Node.walk] at h
      cases h
      simpa using List.find?_some hf
  | a :: pre, n, nd, h => by
    rw [List.cons_append, Node.walk] at h
    cases hf : n.down.find? (fun d => d.label == a) with
    | none => rw [hf] at h; cases h
    | some d =>
      rw [hf] at h
      exact walk_last (pre := pre) h

theorem not_mem {path q : List Bytes} {m k : Nat} (h : ¬ q <+: path) : q ∉ prefixes path m k := by
  intro hm
  simp only [prefixes, List.mem_reverse, List.mem_map] at hm
  obtain ⟨i, -, rfl⟩ := hm
  exact h (List.take_prefix ..)

theorem get_eq {p p' : Parser} {q : List Bytes} (hq : q ≠ []) (h : p'.core.valueAt q = p.core.valueAt q) : p'.Get q = p.Get q := by
  rw [get_valueAt hq, get_valueAt hq, h]

theorem finish_keep {json : Bytes} {n : Node} {p p' : Parser} {path q : List Bytes} {m k : Nat} {e : Option Err} (h : finish json n (prefixes path m k) = .done p' e)
    (hq : ¬ q <+: path) (hw : n.walk q = p.core.walk q) : p'.Get q = p.Get q := by
  have hq0 : q ≠ [] := by rintro rfl; exact hq List.nil_prefix
  refine get_eq hq0 ?_
  unfold finish at h
  split at h
  · rename_i hr
    cases h
    exact (refresh_valueAt hr (not_mem hq)).trans (by rw [Node.valueAt, Node.valueAt, hw])
  · cases h

theorem core_keep {json : Bytes} {n : Node} {p : Parser} {q : List Bytes} (hq : q ≠ []) (hw : n.walk q = p.core.walk q) : (Parser.mk n json).Get q = p.Get q :=
  get_eq hq (by rw [Node.valueAt, Node.valueAt, hw])

/-- A node more at the end hides nothing. -/
theorem walk_add {c : Node} : ∀ (path q : List Bytes) {n nd : Node}, n.walk q = .ok nd → ∃ m, (n.updAt (·.addChild c) path).walk q = .ok m ∧ m.value = nd.value
  | [], [], n, nd, h => by
    rw [Node.walk] at h
    cases h
    exact ⟨_, rfl, by simp [Node.updAt, Node.addChild]⟩
  | _ :: _, [], n, nd, h => by
    rw [Node.walk] at h
    cases h
    exact ⟨_, rfl, by simp [Node.updAt]⟩
  | [], b :: r, n, nd, h => by
    rw [Node.walk] at h
    cases hf : n.down.find? (fun d => d.label == b) with
    | none => rw [hf] at h; cases h
    | some d =>
      rw [hf] at h
      refine ⟨nd, ?_, rfl⟩
      rw [Node.updAt, Node.walk, Node.addChild, setDown_down, List.find?_append, hf]
      exact h
  | a :: path, b :: r, n, nd, h => by
    rw [Node.walk] at h
    simp only [Node.updAt, Node.walk, setDown_down]
    rw [find_replaceFirst (fun d => updAt_label (by simp [Node.addChild]) d path)]
    cases hf : n.down.find? (fun d => d.label == b) with
    | none => rw [hf] at h; cases h
    | some d =>
      rw [hf] at h
      have h : d.walk r = .ok nd := h
      by_cases hab : a = b
      · simp only [Option.map_some, hab, if_true]
        exact walk_add path r h
      · exact ⟨nd, by simpa [hab] using h, rfl⟩

theorem value_add {c : Node} {path q : List Bytes} {p : Parser} {v : Bytes} (hq : q ≠ []) (h : p.Get q = .ok v) :
    (p.core.updAt (·.addChild c) path).valueAt q = p.core.valueAt q := by
  obtain ⟨nd, hw⟩ := Fresh.get_walk hq h
  obtain ⟨m, h1, h2⟩ := walk_add (c := c) path q hw
  rw [Node.valueAt, Node.valueAt, h1, hw]
  exact congrArg Out.ok h2

theorem finish_value {json : Bytes} {n : Node} {p p' : Parser} {q : List Bytes} {qs : List (List Bytes)} {e : Option Err} (h : finish json n qs = .done p' e)
    (hq : q ≠ []) (hm : q ∉ qs) (hw : n.valueAt q = p.core.valueAt q) : p'.Get q = p.Get q := by
  refine get_eq hq ?_
  unfold finish at h
  split at h
  · rename_i hr
    cases h
    exact (refresh_valueAt hr hm).trans hw
  · cases h

end Aside

section
variable {p p' : Parser} {path q : List Text} {e : Option Err} {u : Text} (hq : ¬ q <+: path) (hg : p.Get q = .ok u)
include hq hg

/-- **C144** `AddKeyValue` and what was there below its place (the root included). -/
theorem C144_addKeyValue_below {k v : Text} (h : p.AddKeyValue k v path = .done p' e) : p'.Get q = .ok u := by
  have h0 : q ≠ [] := by rintro rfl; exact hq List.nil_prefix
  rw [← hg]
  have hc := fun n : Node => Aside.value_add (c := n) (path := path) h0 hg
  have hr : ∀ n : Node, (p.core.addChild n).valueAt q = p.core.valueAt q := fun n => Aside.value_add (c := n) (path := []) h0 hg
  unfold Parser.AddKeyValue at h
  dsimp only at h
  repeat' split at h
  all_goals first | (cases h; done) | (cases h; rfl; done) | (cases h; exact Aside.get_eq h0 (hc _)) | (cases h; exact Aside.get_eq h0 (hr _)) |
    exact Aside.finish_value h h0 (Aside.not_mem hq) (hc _)

/-- **C144** The same with nil for the value. -/
theorem C144_addKeyValueNil_below {k : Text} (h : p.AddKeyValueNil k path = .done p' e) : p'.Get q = .ok u := by
  have h0 : q ≠ [] := by rintro rfl; exact hq List.nil_prefix
  rw [← hg]
  have hc := fun n : Node => Aside.value_add (c := n) (path := path) h0 hg
  have hr : ∀ n : Node, (p.core.addChild n).valueAt q = p.core.valueAt q := fun n => Aside.value_add (c := n) (path := []) h0 hg
  unfold Parser.AddKeyValueNil at h
  dsimp only at h
  repeat' split at h
  all_goals first | (cases h; done) | (cases h; rfl; done) | (cases h; exact Aside.get_eq h0 (hc _)) | (cases h; exact Aside.get_eq h0 (hr _)) |
    exact Aside.finish_value h h0 (Aside.not_mem hq) (hc _)

/-- **C144** `Add`. -/
theorem C144_add_below {v : Text} (h : p.Add v path = .done p' e) : p'.Get q = .ok u := by
  have h0 : q ≠ [] := by rintro rfl; exact hq List.nil_prefix
  rw [← hg]
  have hc := fun n : Node => Aside.value_add (c := n) (path := path) h0 hg
  have hr : ∀ n : Node, (p.core.addChild n).valueAt q = p.core.valueAt q := fun n => Aside.value_add (c := n) (path := []) h0 hg
  unfold Parser.Add at h
  dsimp only at h
  generalize opensContainer v = c at h
  generalize (if c = true then 2 else 1) = m at h
  repeat' split at h
  all_goals first | (cases h; done) | (cases h; rfl; done) | (cases h; exact Aside.get_eq h0 (hc _)) | (cases h; exact Aside.get_eq h0 (hr _)) |
    exact Aside.finish_value h h0 (Aside.not_mem hq) (hc _)

end

/-- Values below the place of `Add` and `AddKeyValue`, here the root. -/
example : session (str "[{\"a\":1},2]") (·.Add (str "3") []) (fun p => (p.json, p.Get [str "0", str "a"])) = some ((str "[{\"a\":1},2,3]", .ok (str "1")), none) ∧
    session (str "{\"a\":[1,2]}") (·.AddKeyValue (str "b") (str "3") []) (fun p => (p.json, p.Get [str "a", str "1"])) =
      some ((str "{\"a\":[1,2],\"b\":3}", .ok (str "2")), none) := by decide +kernel

/-- What C143 misses, exactly: after `Add` of an object or array, `Get` gives for the outermost container on the way what it gave before. -/
theorem C143_add_outer {p p' : Parser} {a v : Text} {path : List Text} {e : Option Err} (hv : 2 ≤ v.length) (hb : v.head? = some 0x5B ∨ v.head? = some 0x7B)
    (h : p.Add v (a :: path) = .done p' e) : p'.Get [a] = p.Get [a] := by
  have h0 : [a] ≠ [] := by simp
  have ho : opensContainer v = true := by
    unfold opensContainer
    rcases hb with hb | hb <;> simp [hb, hv]
  have hc : ∀ n nd : Node, p.core.walk (a :: path) = .ok nd → (p.core.updAt (·.addChild n) (a :: path)).valueAt [a] = p.core.valueAt [a] := by
    intro n nd hw
    have : ∃ m, p.core.walk [a] = .ok m := by
      rw [Node.walk] at hw ⊢
      cases hf : p.core.down.find? (fun d => d.label == a) with
      | none => rw [hf] at hw; cases hw
      | some d => exact ⟨d, rfl⟩
    obtain ⟨m, hm⟩ := this
    obtain ⟨m', h1, h2⟩ := Aside.walk_add (c := n) (a :: path) [a] hm
    rw [Node.valueAt, Node.valueAt, h1, hm]
    exact congrArg Out.ok h2
  have hn : [a] ∉ prefixes (a :: path) 2 (a :: path).length := by
    intro hm
    simp only [prefixes, List.mem_reverse, List.mem_map, List.mem_range'_1] at hm
    obtain ⟨i, hi, he⟩ := hm
    have := congrArg List.length he
    simp only [List.length_take, List.length_cons, List.length_nil] at this
    simp only [List.length_cons] at hi
    omega
  have hl : ((a :: path).length == 0) = false := by simp
  unfold Parser.Add at h
  simp only [hl, ho, Bool.false_eq_true, if_false, if_true] at h
  split at h
  · cases h; rfl
  split at h
  · cases h
  · cases h; rfl
  split at h
  · cases h
  · cases h; rfl
  rename_i nd hw
  repeat' split at h
  all_goals first | (cases h; done) | (cases h; rfl; done) | (cases h; exact Aside.get_eq h0 (hc _ nd hw)) | exact Aside.finish_value h h0 hn (hc _ nd hw)

section
variable {p p' : Parser} {path q : List Text} {e : Option Err} (hq : Aside path q)
include hq

theorem Aside.snoc : q ≠ [] ∧ (path.length == 0) = false ∧ ∃ pre x, path = pre ++ [x] := by
  have h0 : q ≠ [] := by rintro rfl; exact hq.1 List.nil_prefix
  have h1 : path ≠ [] := by rintro rfl; exact hq.2 List.nil_prefix
  refine ⟨h0, by cases path <;> simp_all, path.dropLast, path.getLast h1, (List.dropLast_concat_getLast h1).symm⟩

/-- **C144** `Set` of the parser, whatever it reports and whatever the tree is like. -/
theorem C144_set {v : Text} (h : p.Set v path = .done p' e) : p'.Get q = p.Get q := by
  obtain ⟨h0, hl, pre, x, rfl⟩ := hq.snoc
  unfold Parser.Set at h
  rw [hl] at h
  simp only [Bool.false_eq_true, if_false] at h
  split at h
  · cases h
  · cases h; rfl
  · rename_i nd hw
    split at h
    · rename_i n json hn hj
      have hx := Aside.walk_last hw
      have hlab : n.label = x := by
        split at hn
        · cases hp : pCore v (.mk [] [] []) with
          | ok m => rw [hp] at hn; cases hn; cases m; exact hx
          | err e => rw [hp] at hn; cases hn
          | panic => rw [hp] at hn; cases hn
        · cases hn; simp [hx]
      exact Aside.finish_keep h hq.1 (Aside.walk_keep (fun _ _ => hlab) pre q p.core hq.1 hq.2 hq.2)
    · cases h

/-- **C144** `SetKey`, on paths that do not lead through the new key either. -/
theorem C144_setKey {k : Text} (hk : ¬ path.dropLast ++ [k] <+: q) (h : p.SetKey k path = .done p' e) : p'.Get q = p.Get q := by
  obtain ⟨h0, hl, pre, x, rfl⟩ := hq.snoc
  simp only [List.dropLast_concat] at hk
  unfold Parser.SetKey at h
  rw [hl] at h
  simp only [Bool.false_eq_true, if_false] at h
  repeat' split at h
  all_goals first | (cases h; done) | (cases h; rfl; done) | skip
  rename_i hr
  cases h
  refine Aside.get_eq h0 ((Fresh.quiet_miss hr (Aside.not_mem hq.1)).trans ?_)
  rw [Node.valueAt, Node.valueAt, Aside.walk_keep (y := k) (fun d _ => by cases d; rfl) pre q p.core hq.1 hq.2 hk]

omit hq in
theorem Aside.walk_through {k : Bytes} {r : List Bytes} {nd : Node} : ∀ {a : List Bytes} {n : Node}, n.walk (a ++ k :: r) = .ok nd →
    ∃ up d, n.walk a = .ok up ∧ up.down.find? (fun d => d.label == k) = some d
  | [], n, h => by
    rw [List.nil_append, Node.walk] at h
    cases hf : n.down.find? (fun d => d.label == k) with
    | none => rw [hf] at h; cases h
    | some d => exact ⟨n, d, rfl, hf⟩
  | b :: a, n, h => by
    rw [List.cons_append, Node.walk] at h
    rw [Node.walk]
    cases hf : n.down.find? (fun d => d.label == b) with
    | none => rw [hf] at h; cases h
    | some d => rw [hf] at h; exact Aside.walk_through (a := a) h

/-- **C144** `SetKey` and a value that was there, also under the new key. -/
theorem C144_setKey_found {k u : Text} (hg : p.Get q = .ok u) (h : p.SetKey k path = .done p' e) : p'.Get q = .ok u := by
  by_cases hk : path.dropLast ++ [k] <+: q
  · obtain ⟨h0, -⟩ := hq.snoc
    obtain ⟨r, rfl⟩ := hk
    obtain ⟨nd, hw⟩ := Fresh.get_walk h0 hg
    rw [List.append_assoc, List.singleton_append] at hw
    obtain ⟨up, d, h1, h2⟩ := Aside.walk_through hw
    have ha : up.down.any (fun d => d.label == k) = true := List.any_eq_true.2 ⟨d, List.mem_of_find?_eq_some h2, List.find?_some (p := fun d => Node.label d == k) h2⟩
    unfold Parser.SetKey at h
    rw [h1] at h
    cases hx : p.core.walk path <;> simp only [hx, ha, if_true] at h <;> repeat' split at h
    all_goals first | (cases h; done) | (cases h; exact hg)
  · exact (C144_setKey hq hk h).trans hg

/-- **C144** `Delete`. -/
theorem C144_delete (h : p.Delete path = .done p' e) : p'.Get q = p.Get q := by
  obtain ⟨h0, hl, pre, x, rfl⟩ := hq.snoc
  unfold Parser.Delete at h
  rw [hl] at h
  simp only [Bool.false_eq_true, if_false, List.dropLast_concat] at h
  split at h
  · cases h
  · cases h; rfl
  · rename_i nd hw
    rw [Aside.walk_last hw] at h
    have hc := Aside.walk_cut pre q p.core hq.1 hq.2
    split at h
    · cases h
    · cases h; exact Aside.core_keep h0 hc
    · exact Aside.finish_keep h hq.1 hc

/-- **C144** `AddKeyValue`. -/
theorem C144_addKeyValue {k v : Text} (h : p.AddKeyValue k v path = .done p' e) : p'.Get q = p.Get q := by
  obtain ⟨h0, hl, pre, x, rfl⟩ := hq.snoc
  have hc := fun n : Node => Aside.walk_keep (f := (·.addChild n)) (x := x) (y := x) (fun d hd => by simp [Node.addChild, hd]) pre q p.core hq.1 hq.2 hq.2
  unfold Parser.AddKeyValue at h
  simp only [hl, Bool.false_eq_true, if_false] at h
  repeat' split at h
  all_goals first | (cases h; done) | (cases h; rfl; done) | (cases h; exact Aside.core_keep h0 (hc _)) | exact Aside.finish_keep h hq.1 (hc _)

/-- **C144** `AddKeyValue` with nil for the value. -/
theorem C144_addKeyValueNil {k : Text} (h : p.AddKeyValueNil k path = .done p' e) : p'.Get q = p.Get q := by
  obtain ⟨h0, hl, pre, x, rfl⟩ := hq.snoc
  have hc := fun n : Node => Aside.walk_keep (f := (·.addChild n)) (x := x) (y := x) (fun d hd => by simp [Node.addChild, hd]) pre q p.core hq.1 hq.2 hq.2
  unfold Parser.AddKeyValueNil at h
  simp only [hl, Bool.false_eq_true, if_false] at h
  repeat' split at h
  all_goals first | (cases h; done) | (cases h; rfl; done) | (cases h; exact Aside.core_keep h0 (hc _)) | exact Aside.finish_keep h hq.1 (hc _)

/-- **C144** `Add`. -/
theorem C144_add {v : Text} (h : p.Add v path = .done p' e) : p'.Get q = p.Get q := by
  obtain ⟨h0, hl, pre, x, rfl⟩ := hq.snoc
  have hc := fun n : Node => Aside.walk_keep (f := (·.addChild n)) (x := x) (y := x) (fun d hd => by simp [Node.addChild, hd]) pre q p.core hq.1 hq.2 hq.2
  unfold Parser.Add at h
  simp only [hl, Bool.false_eq_true, if_false] at h
  generalize opensContainer v = c at h
  generalize (if c = true then 2 else 1) = m at h
  repeat' split at h
  all_goals first | (cases h; done) | (cases h; rfl; done) | (cases h; exact Aside.core_keep h0 (hc _)) | exact Aside.finish_keep h hq.1 (hc _)

/-- **C144** `Insert`. -/
theorem C144_insert {i : Int} {v : Text} (h : p.Insert i v path = .done p' e) : p'.Get q = p.Get q := by
  obtain ⟨h0, hl, pre, x, rfl⟩ := hq.snoc
  unfold Parser.Insert at h
  simp only [hl, Bool.false_eq_true, if_false] at h
  split at h
  · cases h; rfl
  split at h
  · cases h
  · cases h; rfl
  split at h
  · cases h
  · cases h; rfl
  rename_i nd hw
  split at h
  · cases h; rfl
  split at h
  · split at h
    · cases h
    · cases h; rfl
    · rename_i curr1 hc1
      have hlab : curr1.label = x := by
        rw [← Aside.walk_last hw]
        unfold Node.insertInto at hc1
        repeat' split at hc1
        all_goals first | (cases hc1; done) | (cases hc1; simp)
      have hc := fun n : Node => Aside.walk_keep (f := fun _ => curr1.addChild n) (x := x) (y := x) (fun d hd => by simp [Node.addChild, hlab]) pre q p.core hq.1 hq.2 hq.2
      split at h
      · cases h
      · cases h; exact Aside.core_keep h0 (hc _)
      · exact Aside.finish_keep h hq.1 (hc _)
  · cases h

end

/-- The text may have lost what lies elsewhere in the tree; a call that fails half way leaves it alone too. -/
example : Aside [str "a", str "0"] [str "b"] ∧
    session (str "{\"a\":[1,2],\"b\":\"x\"}") (·.Delete [str "a", str "0"]) (fun p => (p.json, p.Get [str "b"])) = some ((str "{\"a\":[2],\"b\":\"x\"}", .ok (str "x")), none) ∧
    session (str "{\"a\":[1,2],\"b\":\"x\"}") (·.Insert 1 (str "7") [str "a"]) (fun p => (p.json, p.Get [str "b"])) = some ((str "{\"a\":[1,7,2],\"b\":\"x\"}", .ok (str "x")), none) := by
  refine ⟨⟨?_, ?_⟩, ?_, ?_⟩
  · decide +kernel
  · decide +kernel
  · decide +kernel
  · decide +kernel

/-- The condition of `C144_setKey`: the value under the new key appears. -/
theorem C144_setKey_new : Aside [str "a"] [str "b"] ∧
    session (str "{\"a\":1}") (fun p => .done p none) (fun p => p.Get [str "b"]) = some (.err (.keyNotFound (str "b")), none) ∧
    session (str "{\"a\":1}") (·.SetKey (str "b") [str "a"]) (fun p => p.Get [str "b"]) = some (.ok (str "1"), none) := by
  refine ⟨⟨?_, ?_⟩, ?_, ?_⟩
  · decide +kernel
  · decide +kernel
  · decide +kernel
  · decide +kernel

/-- A call that meets the conditions of `C144_setKey_found` where the value stands under the new key. -/
example : Aside [str "a"] [str "b", str "c"] ∧
    session (str "{\"a\":1,\"b\":{\"c\":2}}") (·.SetKey (str "b") [str "a"]) (fun p => p.Get [str "b", str "c"]) =
      some (.ok (str "2"), some (.keyAlreadyExist (str "b"))) := by
  refine ⟨⟨?_, ?_⟩, ?_⟩ <;> decide +kernel

end Jin
