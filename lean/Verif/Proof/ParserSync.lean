import Verif.Proof.ParserGet
/-!
# Proof.ParserSync — a tree of nodes that belongs to a document

`Agree n v` says that the node `n` and everything below it shows the value `v`.  It
is weaker than being the node `pCore` makes (whitespace around scalars is free, and a
one-element array of a scalar may have its node), so the mutators can keep it.
-/

namespace Jin
open Spec

/-- `val` is the text of `v`, for a scalar possibly with whitespace around it. -/
def ValOf (val : Bytes) (v : Json) : Prop :=
  ∃ l r, Ws l ∧ Ws r ∧ val = l ++ (v.render ++ r) ∧ (v.isContainer = true → l = [] ∧ r = [])

mutual
/-- `ds` are the nodes of the entries of `v`. -/
def Kids (ds : List Node) : Json → Prop
  | .arr _ es => (lone es = true ∧ ds = []) ∨ KidsE 0 ds es
  | .obj _ ms => KidsM ds ms
  | _ => ds = []
/-- `ds` are the nodes of the elements from index `k` on. -/
def KidsE (k : Nat) (ds : List Node) : List (Elem Json) → Prop
  | [] => ds = []
  | ⟨_, v, _⟩ :: es => ∃ val dn rest, ds = .mk (itoa k) val dn :: rest ∧ ValOf val v ∧ Kids dn v ∧ KidsE (k + 1) rest es
/-- `ds` are the nodes of the members. -/
def KidsM (ds : List Node) : List (Member Json) → Prop
  | [] => ds = []
  | ⟨_, key, _, _, v, _⟩ :: ms => ∃ val dn rest, ds = .mk key val dn :: rest ∧ ValOf val v ∧ Kids dn v ∧ KidsM rest ms
end

/-- The node `n` shows the value `v`. -/
def Agree (n : Node) (v : Json) : Prop := ValOf n.value v ∧ Kids n.down v

theorem kidsE_cons {k : Nat} {ds : List Node} {e : Elem Json} {es : List (Elem Json)} :
    KidsE k ds (e :: es) ↔ ∃ d rest, ds = d :: rest ∧ d.label = itoa k ∧ Agree d e.v ∧ KidsE (k + 1) rest es := by
  cases e
  simp only [KidsE]
  constructor
  · rintro ⟨val, dn, rest, rfl, h1, h2, h3⟩; exact ⟨_, _, rfl, rfl, ⟨h1, h2⟩, h3⟩
  · rintro ⟨⟨lb, val, dn⟩, rest, rfl, h0, ⟨h1, h2⟩, h3⟩
    simp only [Node.label] at h0
    subst h0
    exact ⟨_, _, _, rfl, h1, h2, h3⟩

theorem kidsM_cons {ds : List Node} {m : Member Json} {ms : List (Member Json)} :
    KidsM ds (m :: ms) ↔ ∃ d rest, ds = d :: rest ∧ d.label = m.key ∧ Agree d m.v ∧ KidsM rest ms := by
  cases m
  simp only [KidsM]
  constructor
  · rintro ⟨val, dn, rest, rfl, h1, h2, h3⟩; exact ⟨_, _, rfl, rfl, ⟨h1, h2⟩, h3⟩
  · rintro ⟨⟨lb, val, dn⟩, rest, rfl, h0, ⟨h1, h2⟩, h3⟩
    simp only [Node.label] at h0
    subst h0
    exact ⟨_, _, _, rfl, h1, h2, h3⟩

/-! ### What `pCore` builds agrees -/

theorem valOf_nodeOf {label l r : Bytes} (v : Json) (hl : Ws l) (hr : Ws r) : ValOf (nodeOf label l r v).value v := by
  cases hc : v.isContainer with
  | false => rw [nodeOf_scalar hc]; exact ⟨l, r, hl, hr, rfl, by simp [hc]⟩
  | true =>
    refine ⟨[], [], rfl, rfl, ?_, fun _ => ⟨rfl, rfl⟩⟩
    cases v <;> simp_all [nodeOf, Node.value, Json.isContainer]

mutual
theorem kids_nodeOf : ∀ (v : Json) {label l r : Bytes}, v.wf → Kids (nodeOf label l r v).down v
  | .lit _, _, _, _, _ => by simp [nodeOf, Node.down, Kids]
  | .str _, _, _, _, _ => by simp [nodeOf, Node.down, Kids]
  | .arr _ es, label, l, r, hw => by
    rw [wf_arr] at hw
    rw [nodeOf_down, Kids]
    by_cases h : lone es
    · left; simp [h]
    · right; simp only [h, Bool.false_eq_true, if_false]; exact kidsE_nodesE es 0 hw.2
  | .obj _ ms, label, l, r, hw => by
    rw [wf_obj] at hw
    rw [nodeOf_down, Kids]
    exact kidsM_nodesM ms hw.2
theorem kidsE_nodesE : ∀ (es : List (Elem Json)) (k : Nat), wfElems es → KidsE k (nodesE k es) es
  | [], _, _ => by simp [nodesE, KidsE]
  | ⟨l, v, r⟩ :: es, k, hw => by
    rw [wfElems_cons] at hw
    rw [kidsE_cons, nodesE_cons]
    exact ⟨_, _, rfl, nodeOf_label .., ⟨valOf_nodeOf v hw.1 hw.2.2.1, kids_nodeOf v hw.2.1⟩, kidsE_nodesE es (k + 1) hw.2.2.2⟩
theorem kidsM_nodesM : ∀ (ms : List (Member Json)), wfMembers ms → KidsM (nodesM ms) ms
  | [], _ => by simp [nodesM, KidsM]
  | ⟨_, _, _, l2, v, r⟩ :: ms, hw => by
    rw [wfMembers_cons] at hw
    obtain ⟨-, -, -, h4, h5, h6, h7⟩ := hw
    rw [kidsM_cons, nodesM_cons]
    exact ⟨_, _, rfl, nodeOf_label .., ⟨valOf_nodeOf v h4 h6, kids_nodeOf v h5⟩, kidsM_nodesM ms h7⟩
end

theorem agree_nodeOf {label l r : Bytes} {v : Json} (hv : v.wf) (hl : Ws l) (hr : Ws r) : Agree (nodeOf label l r v) v :=
  ⟨valOf_nodeOf v hl hr, kids_nodeOf v hv⟩

/-! ### One step down -/

theorem kidsE_find {p : Text} : ∀ {es : List (Elem Json)} {k : Nat} {ds : List Node} {d : Node}, KidsE k ds es →
    ds.find? (fun d => d.label == p) = some d → ∃ n e, p = itoa (k + n : Nat) ∧ es[n]? = some e ∧ Agree d e.v
  | [], k, ds, d, h, hf => by simp only [KidsE] at h; subst h; simp at hf
  | e :: es, k, ds, d, h, hf => by
    obtain ⟨d0, rest, rfl, h1, h2, h3⟩ := kidsE_cons.1 h
    rw [List.find?_cons] at hf
    by_cases he : d0.label = p
    · simp only [he, beq_self_eq_true] at hf
      cases hf
      exact ⟨0, e, by rw [← he, h1, Nat.add_zero], rfl, h2⟩
    · have : (d0.label == p) = false := by simpa using he
      simp only [this] at hf
      obtain ⟨n, e', h4, h5, h6⟩ := kidsE_find h3 hf
      exact ⟨n + 1, e', by rw [h4]; congr 2; omega, by simpa using h5, h6⟩

theorem kidsE_find_plain {p : Text} (hp : plainIndex p) : ∀ {es : List (Elem Json)} {k : Nat} {ds : List Node} {n : Nat} {e : Elem Json},
    KidsE k ds es → es[n]? = some e → decimalValue p = k + n → ∃ d, ds.find? (fun d => d.label == p) = some d
  | [], k, ds, n, e, h, he, _ => by simp at he
  | e0 :: es, k, ds, n, e, h, he, hn => by
    obtain ⟨d0, rest, rfl, h1, h2, h3⟩ := kidsE_cons.1 h
    rw [List.find?_cons]
    by_cases hl : d0.label = p
    · exact ⟨d0, by simp [hl]⟩
    · have : (d0.label == p) = false := by simpa using hl
      simp only [this]
      cases n with
      | zero =>
        exfalso; apply hl
        rw [h1, ← plain_itoa hp, hn, Nat.add_zero]
      | succ n => exact kidsE_find_plain hp h3 (by simpa using he) (by omega)

theorem kidsM_find {p : Text} : ∀ {ms : List (Member Json)} {ds : List Node}, KidsM ds ms →
    match memberIdx ms p with
    | some n => ∃ d m, ds.find? (fun d => d.label == p) = some d ∧ ms[n]? = some m ∧ Agree d m.v
    | none => ds.find? (fun d => d.label == p) = none
  | [], ds, h => by simp only [KidsM] at h; subst h; simp [memberIdx]
  | m :: ms, ds, h => by
    obtain ⟨d0, rest, rfl, h1, h2, h3⟩ := kidsM_cons.1 h
    have ih := kidsM_find (p := p) h3
    unfold memberIdx at *
    rw [List.findIdx?_cons, List.find?_cons, h1]
    by_cases he : m.key = p
    · simp only [he, beq_self_eq_true, if_true]
      exact ⟨d0, m, rfl, rfl, h2⟩
    · have : (m.key == p) = false := by simpa using he
      simp only [this, Bool.false_eq_true, if_false]
      cases hi : ms.findIdx? (fun m => m.key == p) with
      | none => rw [hi] at ih; simpa using ih
      | some n =>
        rw [hi] at ih
        obtain ⟨d, m', h4, h5, h6⟩ := ih
        exact ⟨d, m', h4, by simpa using h5, h6⟩

/-- The node and the value a step leads to. -/
theorem kids_step {ds : List Node} {v c : Json} {p : Text} {d : Node} (h : Kids ds v) (hc : v.child? p = some c)
    (hf : ds.find? (fun d => d.label == p) = some d) : Agree d c := by
  cases v with
  | lit t => simp [Json.child?] at hc
  | str t => simp [Json.child?] at hc
  | obj g ms =>
    rw [Kids] at h
    have := kidsM_find (p := p) h
    simp only [Json.child?] at hc
    cases hm : memberIdx ms p with
    | none => rw [hm] at hc; simp at hc
    | some n =>
      rw [hm] at this hc
      obtain ⟨d', m, h1, h2, h3⟩ := this
      rw [h1] at hf
      cases hf
      simp only [Option.bind_some, h2, Option.map_some, Option.some.injEq] at hc
      exact hc ▸ h3
  | arr g es =>
    rw [Kids] at h
    rcases h with ⟨-, rfl⟩ | h
    · simp at hf
    · obtain ⟨n, e, h1, h2, h3⟩ := kidsE_find h hf
      obtain ⟨i1, i2⟩ := itoa_plain (0 + n)
      simp only [Json.child?] at hc
      cases hr : readIndex p with
      | none => rw [hr] at hc; simp at hc
      | some k =>
        have := readIndex_plain (by rw [h1]; exact i1) hr
        rw [h1, i2, Nat.zero_add] at this
        rw [hr] at hc
        subst this
        simp only [Option.bind_some, h2, Option.map_some, Option.some.injEq] at hc
        exact hc ▸ h3

/-- A step that the tree resolves finds a node. -/
theorem kids_step_found {ds : List Node} {v c : Json} {p : Text} (h : Kids ds v) (hc : v.treeChild? p = some c) :
    ∃ d, ds.find? (fun d => d.label == p) = some d := by
  cases v with
  | lit t => simp [Json.treeChild?] at hc
  | str t => simp [Json.treeChild?] at hc
  | obj g ms =>
    rw [Kids] at h
    have := kidsM_find (p := p) h
    simp only [Json.treeChild?] at hc
    cases hm : memberIdx ms p with
    | none => rw [hm] at hc; simp at hc
    | some n => rw [hm] at this; obtain ⟨d', m, h1, -⟩ := this; exact ⟨d', h1⟩
  | arr g es =>
    rw [Kids] at h
    simp only [Json.treeChild?] at hc
    by_cases hl : lone es
    · simp [hl] at hc
    · by_cases hp : plainIndex p
      · simp only [hl, hp, Bool.not_true, Bool.or_self, Bool.false_eq_true, if_false] at hc
        cases he : es[decimalValue p]? with
        | none => rw [he] at hc; simp at hc
        | some e =>
          rcases h with ⟨h, -⟩ | h
          · exact absurd h hl
          · exact kidsE_find_plain hp h he (by omega)
      · simp [hp] at hc

/-- Walking along a path that the document resolves. -/
theorem walk_agree : ∀ (path : List Text) {n nd : Node} {v w : Json}, Kids n.down v → v.get? path = some w → path ≠ [] →
    n.walk path = .ok nd → Agree nd w
  | [], _, _, _, _, _, _, h, _ => absurd rfl h
  | p :: ps, n, nd, v, w, hk, hg, _, hw => by
    obtain ⟨c, hc, hg⟩ := get_cons hg
    rw [Node.walk] at hw
    cases hf : n.down.find? (fun d => d.label == p) with
    | none => rw [hf] at hw; cases hw
    | some d =>
      rw [hf] at hw
      have ha := kids_step hk hc hf
      cases ps with
      | nil =>
        simp only [Json.get?, Option.some.injEq] at hg
        subst hg
        simp only [Node.walk] at hw
        cases hw
        exact ha
      | cons q qs => exact walk_agree (q :: qs) ha.2 hg (by simp) hw

theorem agree_clean {n : Node} {v : Json} (hv : v.wf) (h : Agree n v) : cleanValue n.value = .ok v.content := by
  obtain ⟨⟨l, r, hl, hr, e, -⟩, -⟩ := h
  rw [e]
  exact cleanValue_ok hl hv hr

/-! ### Changing a node and refreshing the ones above it -/

/-- `qs` in turn: set the value of the node at `q` to `val q`. -/
def fixAll (val : List Bytes → Bytes) (qs : List (List Bytes)) (n : Node) : Node :=
  qs.foldl (fun n q => n.updAt (·.setValue (val q)) q) n

@[simp] theorem setValue_label (n : Node) (v : Bytes) : (n.setValue v).label = n.label := by cases n; rfl
@[simp] theorem setValue_down (n : Node) (v : Bytes) : (n.setValue v).down = n.down := by cases n; rfl
@[simp] theorem setValue_value (n : Node) (v : Bytes) : (n.setValue v).value = v := by cases n; rfl
@[simp] theorem setDown_label (n : Node) (d : List Node) : (n.setDown d).label = n.label := by cases n; rfl
@[simp] theorem setDown_down (n : Node) (d : List Node) : (n.setDown d).down = d := by cases n; rfl
@[simp] theorem setDown_value (n : Node) (d : List Node) : (n.setDown d).value = n.value := by cases n; rfl
@[simp] theorem setDown_setDown (n : Node) (d e : List Node) : (n.setDown d).setDown e = n.setDown e := by cases n; rfl

theorem updAt_label {f : Node → Node} (hf : ∀ n, (f n).label = n.label) (n : Node) (q : List Bytes) :
    (n.updAt f q).label = n.label := by
  cases q with
  | nil => exact hf n
  | cons p ps => rw [Node.updAt, setDown_label]

theorem fixAll_label (val : List Bytes → Bytes) : ∀ (qs : List (List Bytes)) (n : Node), (fixAll val qs n).label = n.label
  | [], _ => rfl
  | q :: qs, n => by
    show (fixAll val qs _).label = _
    rw [fixAll_label val qs, updAt_label (by simp)]

theorem replaceFirst_comp {p : Bytes} {f g : Node → Node} (hf : ∀ n : Node, n.label = p → (f n).label = p) : ∀ ds : List Node,
    replaceFirst (fun d => d.label == p) g (replaceFirst (fun d => d.label == p) f ds) =
      replaceFirst (fun d => d.label == p) (fun d => g (f d)) ds
  | [] => rfl
  | d :: ds => by
    by_cases h : d.label = p
    · simp [replaceFirst, h, hf d h]
    · have : (d.label == p) = false := by simpa using h
      simp [replaceFirst, this, replaceFirst_comp hf ds]

/-- Changes below the same child combine. -/
theorem fixAll_below (val : List Bytes → Bytes) (p : Bytes) : ∀ (qs : List (List Bytes)) (n : Node) (f : Node → Node),
    (∀ d : Node, d.label = p → (f d).label = p) →
    fixAll val (qs.map (p :: ·)) (n.setDown (replaceFirst (fun d => d.label == p) f n.down)) =
      n.setDown (replaceFirst (fun d => d.label == p) (fun d => fixAll (fun q => val (p :: q)) qs (f d)) n.down)
  | [], n, f, _ => rfl
  | q :: qs, n, f, hf => by
    have h1 : ∀ d : Node, d.label = p → ((f d).updAt (·.setValue (val (p :: q))) q).label = p := by
      intro d hd; rw [updAt_label (by simp), hf d hd]
    have := fixAll_below val p qs n (fun d => (f d).updAt (·.setValue (val (p :: q))) q) h1
    rw [show fixAll (fun q => val (p :: q)) (q :: qs) = fun d => fixAll (fun q => val (p :: q)) qs (d.updAt (·.setValue (val (p :: q))) q) from rfl]
    rw [← this]
    show fixAll val (qs.map (p :: ·)) (Node.updAt _ _ (p :: q)) = _
    rw [Node.updAt, setDown_down, setDown_setDown, replaceFirst_comp hf]

/-- The prefixes of a path, longest first, ending with the empty one; `tgt` stands for
the whole path (either `[]` or `[[]]`). -/
def pres (tgt : List (List Bytes)) : List Bytes → List (List Bytes)
  | [] => tgt
  | p :: ps => (pres tgt ps).map (p :: ·) ++ [[]]

theorem replaceFirst_find {p : Bytes} {f : Node → Node} {d : Node} : ∀ {ds : List Node}, ds.find? (fun d => d.label == p) = some d →
    replaceFirst (fun d => d.label == p) f ds = replaceFirst (fun d => d.label == p) (fun _ => f d) ds
  | [], h => by simp at h
  | e :: ds, h => by
    rw [List.find?_cons] at h
    by_cases he : e.label = p
    · simp only [he, beq_self_eq_true] at h
      cases h
      simp [replaceFirst, he]
    · have : (e.label == p) = false := by simpa using he
      simp only [this] at h
      simp [replaceFirst, this, replaceFirst_find h]

theorem find_label {p : Bytes} {d : Node} {ds : List Node} (h : ds.find? (fun d => d.label == p) = some d) : d.label = p := by
  simpa using List.find?_some h

theorem kidsE_replace {p : Text} {d' : Node} {g : Json → Json} : ∀ {es : List (Elem Json)} {k : Nat} {ds : List Node} {n : Nat} {e : Elem Json},
    KidsE k ds es → p = itoa (k + n : Nat) → es[n]? = some e → d'.label = p → Agree d' (g e.v) →
    KidsE k (replaceFirst (fun d => d.label == p) (fun _ => d') ds) (es.modify n fun e => { e with v := g e.v })
  | [], _, _, _, _, _, _, he, _, _ => by simp at he
  | e0 :: es, k, ds, n, e, h, hp, he, hl, ha => by
    obtain ⟨d0, rest, rfl, h1, h2, h3⟩ := kidsE_cons.1 h
    cases n with
    | zero =>
      simp only [List.getElem?_cons_zero, Option.some.injEq] at he
      subst he
      have : d0.label = p := by rw [h1, hp, Nat.add_zero]
      simp only [replaceFirst, this, beq_self_eq_true, if_true, List.modify_zero_cons]
      exact kidsE_cons.2 ⟨d', rest, rfl, by rw [hl, hp, Nat.add_zero], ha, h3⟩
    | succ n =>
      have hne : d0.label ≠ p := by
        rw [h1, hp]; intro e; have := itoa_inj e; omega
      have : (d0.label == p) = false := by simpa using hne
      simp only [replaceFirst, this, Bool.false_eq_true, if_false, List.modify_succ_cons]
      exact kidsE_cons.2 ⟨d0, _, rfl, h1, h2, kidsE_replace h3 (by rw [hp]; congr 2; omega) (by simpa using he) hl ha⟩

theorem kidsM_replace {p : Text} {d' : Node} {g : Json → Json} : ∀ {ms : List (Member Json)} {ds : List Node} {n : Nat} {m : Member Json},
    KidsM ds ms → memberIdx ms p = some n → ms[n]? = some m → d'.label = p → Agree d' (g m.v) →
    KidsM (replaceFirst (fun d => d.label == p) (fun _ => d') ds) (ms.modify n fun m => { m with v := g m.v })
  | [], _, _, _, _, _, he, _, _ => by simp at he
  | m0 :: ms, ds, n, m, h, hp, he, hl, ha => by
    obtain ⟨d0, rest, rfl, h1, h2, h3⟩ := kidsM_cons.1 h
    unfold memberIdx at hp
    rw [List.findIdx?_cons] at hp
    by_cases hk : m0.key = p
    · simp only [hk, beq_self_eq_true, if_true, Option.some.injEq] at hp
      subst hp
      simp only [List.getElem?_cons_zero, Option.some.injEq] at he
      subst he
      simp only [replaceFirst, h1, hk, beq_self_eq_true, if_true, List.modify_zero_cons]
      exact kidsM_cons.2 ⟨d', rest, rfl, hl, ha, h3⟩
    · have hb : (m0.key == p) = false := by simpa using hk
      simp only [hb, Bool.false_eq_true, if_false] at hp
      cases hi : ms.findIdx? (fun m => m.key == p) with
      | none => rw [hi] at hp; simp at hp
      | some j =>
        rw [hi] at hp
        simp only [Option.map_some, Option.some.injEq] at hp
        subst hp
        simp only [replaceFirst, h1, hb, Bool.false_eq_true, if_false, List.modify_succ_cons]
        exact kidsM_cons.2 ⟨d0, _, rfl, h1, h2, kidsM_replace h3 hi (by simpa using he) hl ha⟩

/-- Replacing the child a step leads to. -/
theorem kids_replace {ds : List Node} {v c : Json} {p : Text} {d d' : Node} {g : Json → Json} (h : Kids ds v) (hc : v.child? p = some c)
    (hf : ds.find? (fun d => d.label == p) = some d) (hl : d'.label = p) (ha : Agree d' (g c)) :
    Kids (replaceFirst (fun d => d.label == p) (fun _ => d') ds) (v.updChild p g) := by
  cases v with
  | lit t => simp [Json.child?] at hc
  | str t => simp [Json.child?] at hc
  | obj gp ms =>
    simp only [Json.child?] at hc
    simp only [Json.updChild]
    cases hm : memberIdx ms p with
    | none => rw [hm] at hc; simp at hc
    | some n =>
      rw [hm] at hc
      simp only [Option.bind_some] at hc
      cases he : ms[n]? with
      | none => rw [he] at hc; simp at hc
      | some m =>
        rw [he] at hc
        simp only [Option.map_some, Option.some.injEq] at hc
        subst hc
        rw [Kids] at h ⊢
        exact kidsM_replace h hm he hl ha
  | arr gp es =>
    rw [Kids] at h
    rcases h with ⟨-, rfl⟩ | h
    · simp at hf
    · obtain ⟨n, e, h1, h2, h3⟩ := kidsE_find h hf
      obtain ⟨i1, i2⟩ := itoa_plain (0 + n)
      simp only [Json.child?] at hc
      simp only [Json.updChild]
      cases hr : readIndex p with
      | none => rw [hr] at hc; simp at hc
      | some k =>
        have := readIndex_plain (by rw [h1]; exact i1) hr
        rw [h1, i2, Nat.zero_add] at this
        rw [hr] at hc
        subst this
        simp only [Option.bind_some, h2, Option.map_some, Option.some.injEq] at hc
        subst hc
        simp only
        rw [Kids]
        exact .inr (kidsE_replace h h1 h2 hl ha)

theorem child_container {v c : Json} {p : Text} (h : v.child? p = some c) (g : Json → Json) :
    v.isContainer = true ∧ (v.updChild p g).isContainer = true := by
  cases v with
  | lit t => simp [Json.child?] at h
  | str t => simp [Json.child?] at h
  | arr gp es => simp only [Json.updChild]; split <;> exact ⟨rfl, rfl⟩
  | obj gp ms => simp only [Json.updChild]; split <;> exact ⟨rfl, rfl⟩

/-- The text of the value at a path. -/
def textAt (v : Json) (q : List Text) : Bytes := ((v.get? q).map Json.render).getD []

/-- **The frame**: change the node at `path` by `f` and the value there by `g`, then refresh the
nodes above (and, when `tgt = [[]]`, the node itself). -/
theorem agree_upd {f : Node → Node} {g : Json → Json} {tgt : List (List Bytes)} (hfl : ∀ n, (f n).label = n.label) :
    ∀ (path : List Text) {n nd : Node} {v w : Json}, Agree n v → v.get? path = some w → n.walk path = .ok nd →
    (Agree nd w → Agree (fixAll (fun _ => (g w).render) tgt (f nd)) (g w)) → (tgt = [] ∨ tgt = [[]]) →
    Agree (fixAll (textAt (v.upd g path)) (pres tgt path) (n.updAt f path)) (v.upd g path)
  | [], n, nd, v, w, hn, hg, hw, H, ht => by
    simp only [Json.get?, Option.some.injEq] at hg
    subst hg
    rw [Node.walk] at hw
    cases hw
    have := H hn
    simp only [pres, Node.updAt, Json.upd]
    rcases ht with rfl | rfl
    · exact this
    · simpa [fixAll, textAt, Json.get?] using this
  | p :: ps, n, nd, v, w, hn, hg, hw, H, ht => by
    obtain ⟨c, hc, hg⟩ := get_cons hg
    rw [Node.walk] at hw
    cases hf : n.down.find? (fun d => d.label == p) with
    | none => rw [hf] at hw; cases hw
    | some d =>
      rw [hf] at hw
      have ha := kids_step hn.2 hc hf
      have ih := agree_upd (f := f) (g := g) hfl ps ha hg hw H ht
      rw [Json.upd]
      generalize hx : v.updChild p (fun x => x.upd g ps) = x
      have hcc := child_container hc (fun x => x.upd g ps)
      have hxc : x.child? p = some (c.upd g ps) := by rw [← hx]; exact child_updChild hc _
      have hval : (fun q => textAt x (p :: q)) = textAt (c.upd g ps) := by
        funext q; simp [textAt, Json.get?, hxc]
      rw [pres, fixAll, List.foldl_append]
      change Agree (Node.setValue (fixAll (textAt x) _ _) _) x
      rw [Node.updAt, fixAll_below _ _ _ _ _ (fun d hd => by rw [updAt_label hfl, hd]), hval,
        replaceFirst_find (f := fun d => fixAll (textAt (c.upd g ps)) (pres tgt ps) (d.updAt f ps)) hf]
      refine ⟨⟨[], [], rfl, rfl, ?_, fun _ => ⟨rfl, rfl⟩⟩, ?_⟩
      · simp [textAt, Json.get?]
      · rw [setValue_down, setDown_down, ← hx]
        exact kids_replace hn.2 hc hf (by rw [fixAll_label, updAt_label hfl, find_label hf]) ih

end Jin
